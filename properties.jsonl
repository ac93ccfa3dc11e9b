{"id": "C01", "title": "Comparison policies are coherent and symmetric", "statement": "For each number comparison policy (direct, absolute tolerance with tolerance >= 0, relative tolerance with tolerance >= 0) and any two numbers u, v: exactly one of less_than(u,v), equals(u,v), greater_than(u,v) holds; less_than_or_equal is less_than or equals; greater_than_or_equal is greater_than or equals; equals is reflexive and symmetric; less_than(u,v) is greater_than(v,u).", "quantifier": "all pairs of numbers and all non-negative tolerances", "why_tests_cant": "Tests compare a few literals with one tolerance; the trichotomy has to hold at every tolerance boundary.", "anchors": ["geometrix/numeric/number_comparison_policy.hpp: direct_comparison_policy, absolute_tolerance_comparison_policy, relative_tolerance_comparison_policy"]}
{"id": "C02", "title": "Policy less_than can be used as a sorting predicate", "statement": "less_than of a comparison policy is a strict weak ordering (irreflexive, transitive, and its incomparability relation is transitive), as std::sort, std::set and std::map require when the library builds comparators from it.", "quantifier": "all triples of numbers, all policies, all tolerances", "why_tests_cant": "Strict weak ordering is a statement about all triples; a violation needs values chosen relative to the tolerance.", "anchors": ["geometrix/numeric/number_comparison_policy.hpp: less_than, equals", "geometrix/utility/utilities.hpp: lexicographical_comparer, lexicographical_compare"]}
{"id": "C03", "title": "Lexicographic point comparison is a total order", "statement": "With the direct policy, the lexicographical point comparer orders points by x, then by y: it is a strict total order on points, two points are equivalent exactly when they are equal, and the reverse lexicographical comparer does the same with y before x.", "quantifier": "all pairs and triples of 2D points", "why_tests_cant": "An order axiom ranges over all triples; a unit test only sorts particular arrays.", "anchors": ["geometrix/utility/utilities.hpp: lexicographical_compare, lexicographical_comparer, reverse_lexicographical_compare"]}
{"id": "C04", "title": "Segment comparator is a strict weak ordering", "statement": "lexicographical_segment_compare orders segments by their endpoints and is a strict weak ordering whose equivalence is equality of endpoint pairs, so that it can key ordered containers.", "quantifier": "all pairs and triples of segments", "why_tests_cant": "A set of segments may look right on a sample and silently merge distinct segments that compare equivalent.", "anchors": ["geometrix/utility/utilities.hpp: lexicographical_segment_compare, segment_interval_compare"]}
{"id": "C05", "title": "Orientation predicate laws", "statement": "get_orientation(A,B,C) reports the sign of the signed area of triangle ABC; it is unchanged by cyclic rotation of its arguments, by translating the points, and by scaling with a positive factor; it is reversed by swapping two points; it is collinear whenever two points coincide.", "quantifier": "all point triples, all translations, all positive scales", "why_tests_cant": "Algebraic identities over all reals.", "anchors": ["geometrix/algorithm/orientation.hpp: get_orientation", "geometrix/algebra/exterior_product.hpp: exterior_product_area"]}
{"id": "C06", "title": "Betweenness is membership of the closed segment", "statement": "For collinear points and a non degenerate segment AB, is_between(A,B,P,include bounds) holds exactly when P = A + t (B - A) with 0 <= t <= 1 (0 < t < 1 when bounds are excluded); is_collinear_point_between gives the same answer for points of the line and fails its assertion exactly for points off the line.", "quantifier": "all segments and points", "why_tests_cant": "A test can only sample points; the claim is an equivalence with a geometric definition and depends on which coordinate the code compares.", "anchors": ["geometrix/utility/utilities.hpp: is_between, is_collinear, is_collinear_point_between"]}
{"id": "C07", "title": "Angular sector test", "statement": "is_vector_between(a,b,c) decides whether c lies in the counter-clockwise sector swept from a to b, including or excluding the two bounding rays as requested.", "quantifier": "all non zero 2D vectors a, b, c", "why_tests_cant": "Sectors wider than a half turn and the degenerate (parallel, opposite) cases form infinitely many configurations.", "anchors": ["geometrix/utility/utilities.hpp: is_vector_between"]}
{"id": "C08", "title": "Angle comparator is a strict weak ordering by polar angle", "statement": "vector_angle_compare and point_angle_compare order non zero vectors by polar angle in [0, 2 pi): the relation is a strict weak ordering whose equivalence classes are exactly the rays from the origin.", "quantifier": "all triples of non zero vectors (points distinct from the pivot)", "why_tests_cant": "Transitivity over all triples, including across half-plane boundaries.", "anchors": ["geometrix/utility/point_angle_compare.hpp: point_angle_compare", "geometrix/utility/vector_angle_compare.hpp: vector_angle_compare"]}
{"id": "C09", "title": "2D segment intersection is classified correctly", "statement": "For two non degenerate 2D segments under exact arithmetic, segment_segment_intersection answers e_non_crossing exactly when the closed segments share no point; e_crossing exactly when they meet in a single point interior to both; e_endpoint when they meet in a single point that is an endpoint of one and are not parallel; e_overlapping only when they are collinear and share a point. Any reported intersection point lies on both segments.", "quantifier": "all quadruples of 2D points with A != B and C != D", "why_tests_cant": "Degenerate, touching and collinear configurations form a measure zero set that random tests miss.", "anchors": ["geometrix/algorithm/intersection/segment_segment_intersection.hpp: segment_segment_intersection, detail::parallel_intersection"]}
{"id": "C10", "title": "Line-line and line-segment intersection", "statement": "For non parallel lines line_line_intersect returns the unique common point, and parameters s and t that both reproduce it; for parallel lines it does not claim a crossing. line_segment_intersect reports a crossing exactly when the line meets the segment.", "quantifier": "all quadruples of 2D points", "why_tests_cant": "Uniqueness and the parallel boundary are universal statements.", "anchors": ["geometrix/algorithm/line_intersection.hpp: line_line_intersect, line_segment_intersect"]}
{"id": "C11", "title": "Ray-segment intersection overloads agree and are correct", "statement": "ray_segment_intersection reports an intersection exactly when some point O + t v with t >= 0 lies on the segment, the reported t is the smallest such parameter, the reported point lies on both, and the overload without output parameters returns the same classification.", "quantifier": "all rays with non zero direction and all segments", "why_tests_cant": "Agreement of two separately written overloads on all inputs, including parallel ones.", "anchors": ["geometrix/algorithm/intersection/ray_segment_intersection.hpp: ray_segment_intersection", "geometrix/algorithm/intersection/ray_line_intersection.hpp: ray_line_intersection"]}
{"id": "C12", "title": "Box intersection tests are exact", "statement": "segment_aabb_intersection answers true exactly when the segment and the closed box share a point; ray_aabb_intersection answers true exactly when the ray and the closed box share a point and the returned entry parameter is the least parameter in the box.", "quantifier": "all segments, rays and axis aligned boxes with lower <= upper", "why_tests_cant": "Separating axis completeness is a theorem about all configurations.", "anchors": ["geometrix/algorithm/intersection/segment_aabb_intersection.hpp: segment_aabb_intersection", "geometrix/algorithm/intersection/ray_aabb_intersection.hpp: ray_aabb_intersection"]}
{"id": "C13", "title": "Circle-circle intersection points", "statement": "When circle_circle_intersection reports one or two points, each lies on both circles, and every common point of two distinct circles is reported.", "quantifier": "all pairs of circles with non negative radii", "why_tests_cant": "The claim is an equation over the reals and an exhaustiveness statement.", "anchors": ["geometrix/algorithm/intersection/circle_circle_intersection.hpp: circle_circle_intersection", "geometrix/algorithm/intersection/sphere_sphere_intersection.hpp"]}
{"id": "C14", "title": "Bounding box tests are set tests", "statement": "The axis aligned box intersection test answers true exactly when two closed boxes share a point, the point test exactly when the point is in the box, expand yields the least box containing both operands, and the sphere/box test answers true exactly when some box point is within the radius.", "quantifier": "all boxes with lower <= upper, all points, all radii", "why_tests_cant": "Touching faces and containment are edge cases that sampling misses.", "anchors": ["geometrix/primitive/axis_aligned_bounding_box.hpp: axis_aligned_bounding_box", "geometrix/algorithm/intersection/aabb_aabb_intersection.hpp", "geometrix/algorithm/bounding_box_intersection.hpp", "geometrix/algorithm/intersection/sphere_aabb_intersection.hpp"]}
{"id": "C15", "title": "Oriented box separation test is sound and complete", "statement": "obb_obb_intersection answers true exactly when two oriented rectangles share a point.", "quantifier": "all pairs of oriented boxes with orthonormal axes and non negative half widths", "why_tests_cant": "Separating axis theorem over all orientations.", "anchors": ["geometrix/algorithm/intersection/obb_obb_intersection.hpp: obb_obb_intersection"]}
{"id": "C16", "title": "Cohen-Sutherland clipping returns exactly the part inside the window", "statement": "Clipping a segment to an axis aligned window accepts exactly when the segment meets the window, and the returned segment is exactly the set of points of the input inside the window; clipping an already clipped segment changes nothing; the procedure terminates.", "quantifier": "all segments and all windows with lower <= upper", "why_tests_cant": "Set equality and termination for all inputs.", "anchors": ["geometrix/algorithm/cohen_sutherland_line_clipping.hpp"]}
{"id": "C17", "title": "Point-segment closest point is the nearest point", "statement": "point_segment_closest_point returns a point of the closed segment and no point of the segment is closer; point_segment_distance_sqrd is the squared distance to it, hence zero exactly on the segment.", "quantifier": "all points and segments, degenerate segments included", "why_tests_cant": "Minimality quantifies over all points of the segment.", "anchors": ["geometrix/algorithm/distance/point_segment_closest_point.hpp", "geometrix/algorithm/distance/point_segment_distance.hpp"]}
{"id": "C18", "title": "Segment-segment closest points are a global minimum", "statement": "segment_segment_closest_point returns one point on each segment and the squared distance between them is the minimum over all pairs of points of the two segments; degenerate and parallel segments included.", "quantifier": "all pairs of segments", "why_tests_cant": "A global minimum over a two parameter family; the clamping logic has many branches.", "anchors": ["geometrix/algorithm/distance/segment_segment_closest_point.hpp", "geometrix/algorithm/distance/segment_segment_distance.hpp"]}
{"id": "C19", "title": "Point-box distance is a minimum", "statement": "point_aabb_distance_sqrd is the minimum squared distance from the point to the closed box and point_aabb_closest_point returns a minimiser.", "quantifier": "all points and boxes with lower <= upper, dimensions 2 and 3", "why_tests_cant": "Minimality quantifies over all points of the box.", "anchors": ["geometrix/algorithm/distance/point_aabb_distance.hpp"]}
{"id": "C20", "title": "Box-box distance is a minimum", "statement": "aabb_aabb_distance_sqrd is the minimum squared distance between points of two closed boxes; it is symmetric and zero exactly when the boxes intersect.", "quantifier": "all pairs of boxes with lower <= upper", "why_tests_cant": "Minimality quantifies over all pairs of points.", "anchors": ["geometrix/algorithm/distance/aabb_aabb_distance.hpp"]}
{"id": "C21", "title": "Point to polyline and polygon distance is the minimum over all edges", "statement": "point_polyline_distance_sqrd and point_polygon_distance_sqrd are the minimum squared distance from the point to every point of every edge (for polygons including the closing edge), and point_polyline_closest_point, point_polygon_closest_point and point_polygon_collection_closest_point return a point of the polyline, boundary or boundaries at that minimum distance.", "quantifier": "all points and all point sequences of any length >= 2", "why_tests_cant": "Sequences of arbitrary length; induction over the sequence is needed.", "anchors": ["geometrix/algorithm/distance/point_polyline_distance.hpp", "geometrix/algorithm/distance/point_polyline_closest_point.hpp", "geometrix/algorithm/distance/point_polygon_distance.hpp", "geometrix/algorithm/distance/point_polygon_closest_point.hpp"]}
{"id": "C22", "title": "Branch and bound polyline distance equals the brute force distance", "statement": "polyline_polyline_distance_sqrd returns the minimum of the segment-segment squared distances over all pairs of segments, whatever order the priority queue breaks ties in, and whichever of the brute force and the tree search is selected by the sizes.", "quantifier": "all pairs of polylines of any length >= 2", "why_tests_cant": "The pruning is only observable on long inputs; correctness is about every queue order.", "anchors": ["geometrix/algorithm/distance/polyline_polyline_distance.hpp"]}
{"id": "C23", "title": "Polygon-polygon distance considers every edge", "statement": "polygon_polygon_distance_sqrd is the minimum squared distance between the boundaries of the two polygons, closing edges included, for any number of vertices.", "quantifier": "all pairs of polygons with at least 3 vertices", "why_tests_cant": "The branch taken depends on the vertex counts; tests use small polygons.", "anchors": ["geometrix/algorithm/distance/polygon_polygon_distance.hpp"]}
{"id": "C24", "title": "Oriented box distances are minima", "statement": "point_obb_distance_sqrd and point_obb_closest_point give the minimum over the oriented box; segment_obb_distance_sqrd is zero when the segment meets the box and otherwise the minimum distance between them.", "quantifier": "all boxes with orthonormal axes, all points and segments", "why_tests_cant": "Minimality over all points; wrong edge indices only show for certain placements.", "anchors": ["geometrix/algorithm/distance/point_obb_distance.hpp", "geometrix/algorithm/distance/segment_obb_distance.hpp"]}
{"id": "C25", "title": "Signed area and area laws", "statement": "The signed polygon area is additive over a fan from any vertex, unchanged by translation and by rotating the vertex list, negated by reversing it, and scales with the square of a uniform scale; the perimeter is unchanged by reversal; the centroid moves with the polygon.", "quantifier": "all vertex lists of any length", "why_tests_cant": "Laws over lists of arbitrary length.", "anchors": ["geometrix/primitive/point_sequence_utilities.hpp: get_signed_area, get_area, get_centroid", "geometrix/algorithm/point_sequence/length.hpp: polyline_length, polygon_length"]}
{"id": "C26", "title": "Polyline congruence means rigid motion", "statement": "are_polylines_congruent and are_polygons_congruent hold for two sequences with no repeated consecutive points exactly when an orientation preserving rigid motion of the plane maps one onto the other vertex by vertex.", "quantifier": "all pairs of polylines of any length", "why_tests_cant": "Existence of a motion is an existential claim and sequences have arbitrary length.", "anchors": ["geometrix/algorithm/point_sequence/is_congruent.hpp: are_polylines_congruent, are_polygons_congruent"]}
{"id": "C27", "title": "Removing collinear points keeps the curve", "statement": "remove_collinear_points returns a subsequence with the same endpoints whose point set is the same curve and that has no three consecutive collinear points; clean is idempotent; polygon vertices that are collinear with their neighbours are all removed.", "quantifier": "all polylines and polygons of any length", "why_tests_cant": "Sequences of arbitrary length, collinear runs at every position including the first vertex.", "anchors": ["geometrix/algorithm/point_sequence/remove_collinear_points.hpp"]}
{"id": "C28", "title": "Splitting a polyline loses nothing", "statement": "polyline_split at position p returns two polylines that share the split point, concatenate to the input and have lengths p and total - p; polyline_point_at_position returns the point at that arc length.", "quantifier": "all polylines and all positions", "why_tests_cant": "Positions on vertices and at the ends are a measure zero set.", "anchors": ["geometrix/algorithm/point_sequence/polyline_split.hpp: polyline_split, polyline_point_at_position", "geometrix/algorithm/point_sequence/length.hpp"]}
{"id": "C29", "title": "Line simplification keeps every vertex within epsilon", "statement": "ramer_douglas_peucker keeps the first and last vertex, returns a subsequence of the input, and every removed vertex is within epsilon of the segment of the output that replaces it.", "quantifier": "all polylines and all epsilon > 0", "why_tests_cant": "The error bound quantifies over all removed vertices of arbitrary inputs.", "anchors": ["geometrix/algorithm/point_sequence/ramer_douglas_peucker_algorithm.hpp"]}
{"id": "C30", "title": "Rotation is an isometry", "statement": "The matrix built from two unit vectors rotates the first onto the second, and rotating points about an origin keeps all pairwise distances and orientations and fixes the origin.", "quantifier": "all unit vectors, origins and points", "why_tests_cant": "Identities over all reals.", "anchors": ["geometrix/algorithm/rotation.hpp"]}
{"id": "C31", "title": "Splitting a segment into short pieces", "statement": "split_segment returns points beginning at the start, ending at the end, lying on the segment in order, with consecutive points no further apart than the given maximum, and it terminates for every positive maximum.", "quantifier": "all segments and all positive sizes", "why_tests_cant": "Recursion depth depends on the input; termination and spacing are universal claims.", "anchors": ["geometrix/algorithm/split_segment.hpp"]}
{"id": "C32", "title": "kd-tree range search reports exactly the points in range", "statement": "A range search of a kd_tree built from any set of points visits every stored point in the query box, once, and no point outside it.", "quantifier": "all point sets, all boxes, every result std::nth_element may produce", "why_tests_cant": "Completeness over all point sets and partitions.", "anchors": ["geometrix/algorithm/kd_tree.hpp: kd_tree::search, build", "geometrix/algorithm/median_partitioning_strategy.hpp"]}
{"id": "C33", "title": "Grid cell addressing is consistent", "statement": "get_x_index and get_y_index send a point inside the grid to a valid cell; the cell's corner points bound the point; the centroid of a cell maps back to the same cell; points of different cells never share both indices.", "quantifier": "all grids with positive cell width and all points inside", "why_tests_cant": "Floor boundaries for all cells.", "anchors": ["geometrix/algorithm/grid_traits.hpp: grid_traits"]}
{"id": "C34", "title": "Grids behave as maps from cells to data", "statement": "hash_grid_2d and grid_2d read back what was stored at a cell, leave all other cells unchanged, and hash_grid_2d::find_cell returns null exactly for cells never created; the internal key of a cell is unique to its index pair.", "quantifier": "all sequences of operations and all index pairs", "why_tests_cant": "Injectivity of the packed key and frame conditions are universal.", "anchors": ["geometrix/algorithm/hash_grid_2d.hpp", "geometrix/algorithm/grid_2d.hpp"]}
{"id": "C35", "title": "Bresenham traversal visits a connected path of cells between the two ends", "statement": "The Bresenham traversal of a segment starts at the start cell, ends at the end cell, moves to one of the 8 neighbours in every step, visits each cell at most once and visits max(|dx|,|dy|)+1 cells, each within half a cell of the ideal line.", "quantifier": "all integer cell pairs", "why_tests_cant": "All slopes and lengths; needs a loop invariant.", "anchors": ["geometrix/algorithm/bresenham_grid_traversal.hpp"]}
{"id": "C36", "title": "Fast voxel traversal follows the segment through edge adjacent cells", "statement": "The fast voxel traversal visits a 4-connected chain of cells from the first cell to the last and every visited cell meets the segment; it terminates.", "quantifier": "all segments inside the grid", "why_tests_cant": "Loop over floating quantities for all slopes.", "anchors": ["geometrix/algorithm/fast_voxel_grid_traversal.hpp"]}
{"id": "C37", "title": "Flood fill visits exactly the reachable cells once", "statement": "The flood fill grid traversal visits every cell connected to the seed through accepted cells, no other cell, and each once.", "quantifier": "all grids, predicates and seeds", "why_tests_cant": "Reachability on arbitrary grids.", "anchors": ["geometrix/algorithm/floodfill_grid_traversal.hpp"]}
{"id": "C38", "title": "Point in polygon agrees with the parity rule", "statement": "The even-odd point in polygon test is independent of which vertex the polygon starts at and of its direction, and flips exactly when the point crosses one edge; a point on the border is reported on the border by the classifying version.", "quantifier": "all polygons of any length and all points", "why_tests_cant": "All vertex lists, including rays through vertices.", "anchors": ["geometrix/algorithm/point_in_polygon.hpp"]}
{"id": "C39", "title": "Fixed point arithmetic", "statement": "For the binary fixed point types, converting an integer to fixed point and back gives the integer, addition and subtraction are exact, multiplication and division are the exact result rounded by the documented rule, and comparison agrees with the represented numbers, as long as nothing overflows.", "quantifier": "all raw values and scales", "why_tests_cant": "Rounding of negative values and all scales.", "anchors": ["geometrix/numeric/fixed_point.hpp", "geometrix/numeric/detail/fixed_point.hpp", "geometrix/numeric/fixed_point_traits.hpp"]}
{"id": "C40", "title": "Intervals", "statement": "Interval expansion yields the least interval containing the operand, intersects means the intervals share a point, and interval arithmetic encloses the exact range of the operation.", "quantifier": "all intervals and numbers", "why_tests_cant": "Enclosure is a statement about all members of both intervals.", "anchors": ["geometrix/numeric/interval.hpp"]}
{"id": "C41", "title": "Convex hull encloses the input", "statement": "The Graham scan returns a counter-clockwise convex polygon whose vertices are input points and which contains all input points.", "quantifier": "all point sets", "why_tests_cant": "All inputs, with collinear and repeated points.", "anchors": ["geometrix/algorithm/convex_hull_graham.hpp"]}
{"id": "C42", "title": "LUP solve solves the system", "statement": "When LUP decomposition succeeds with non zero pivots, P A = L U and the returned x satisfies A x = b; a singular column is reported by an exception rather than a wrong result.", "quantifier": "all square matrices and right hand sides of any size", "why_tests_cant": "All sizes and pivoting orders.", "anchors": ["geometrix/algebra/lup_decomposition.hpp"]}
{"id": "C43", "title": "Determinant is the Leibniz determinant", "statement": "determinant returns the mathematical determinant for every size, hence is multiplicative and zero for singular matrices.", "quantifier": "all square matrices of any size", "why_tests_cant": "All sizes; algebraic identity.", "anchors": ["geometrix/arithmetic/detail/determinant.hpp", "geometrix/algebra/functions/determinant.hpp"]}
{"id": "C44", "title": "Vector operations", "statement": "normalize returns a unit vector parallel to the input, left_normal and right_normal are perpendicular to it and of the same length, exterior_product_area in 3D is the area of the parallelogram, and bisect returns the unit vector that halves the counter-clockwise angle between the inputs.", "quantifier": "all non zero vectors", "why_tests_cant": "Algebraic identities over all reals.", "anchors": ["geometrix/arithmetic/vector/normalize.hpp", "geometrix/arithmetic/vector/perp.hpp", "geometrix/arithmetic/vector/bisect.hpp", "geometrix/algebra/exterior_product.hpp"]}
{"id": "C45", "title": "Polyline-polyline intersection visits every crossing", "statement": "polyline_polyline_intersect calls the visitor for every pair of intersecting segments until the visitor asks to stop by returning true.", "quantifier": "all pairs of polylines and all visitors", "why_tests_cant": "Control flow over arbitrary lengths and visitor behaviours.", "anchors": ["geometrix/algorithm/intersection/polyline_polyline_intersection.hpp", "geometrix/algorithm/intersection/segment_polyline_intersection.hpp"]}
{"id": "C46", "title": "Memoization is transparent", "statement": "A memoized function returns the same results as the function it wraps for every sequence of calls, and evaluates it at most once per argument.", "quantifier": "all pure functions and call sequences", "why_tests_cant": "All call sequences.", "anchors": ["geometrix/utility/memoize.hpp: memoize"]}
{"id": "C47", "title": "Polygon simplicity test", "statement": "is_polygon_simple answers true exactly when non adjacent edges share no point and adjacent edges share only their common vertex; the memoized and plain versions agree.", "quantifier": "all polygons of any length", "why_tests_cant": "All edge pairs of arbitrary polygons.", "anchors": ["geometrix/algorithm/point_sequence/is_polygon_simple.hpp"]}
{"id": "C48", "title": "Angle normalisation", "statement": "normalize_angle_0_2pi and normalize_angle_minus_pi_to_pi map any angle to one that differs by a whole number of turns and lies in the documented interval, and are idempotent.", "quantifier": "all real angles", "why_tests_cant": "Boundary values and negative multiples of a turn.", "anchors": ["geometrix/utility/utilities.hpp: normalize_angle_0_2pi, normalize_angle_minus_pi_to_pi"]}
{"id": "C49", "title": "Collinear segment difference and union", "statement": "For overlapping collinear segments, collinear_segment_difference returns segments covering exactly the points of the first not in the interior of the second and collinear_segment_union one covering exactly the union.", "quantifier": "all pairs of collinear segments", "why_tests_cant": "All relative placements, including shared endpoints.", "anchors": ["geometrix/utility/utilities.hpp: collinear_segment_difference, collinear_segment_union"]}
{"id": "C50", "title": "Arc length", "statement": "polyline_length is non negative, additive over concatenation at a shared vertex, unchanged by reversal and at least the distance between the ends; polyline_mid_point halves the length.", "quantifier": "all polylines of any length", "why_tests_cant": "Lists of arbitrary length.", "anchors": ["geometrix/algorithm/point_sequence/length.hpp", "geometrix/algorithm/point_sequence/polyline_mid_point.hpp"]}
{"id": "C52", "title": "Squared point distance in any dimension", "statement": "point_point_distance_sqrd of two points of the same dimension is the sum of the squared differences of all coordinates.", "quantifier": "all points of every dimension >= 1", "why_tests_cant": "The code recurses over the dimension at compile time with special cases for the first four; tests use two and three dimensions.", "anchors": ["geometrix/algorithm/distance/point_point_distance.hpp"]}
{"id": "C53", "title": "Closest points of a segment and a polyline or polygon", "statement": "segment_polyline_closest_point and segment_polygon_closest_point report an edge, parameters and two points such that the points are at the parameters of the segment and of the reported edge and their squared distance is the minimum over the segment and the whole polyline or boundary; the distance functions return the same minimum; for polylines the reported edge is the first that attains it.", "quantifier": "all segments and all point sequences of any length >= 2", "why_tests_cant": "Sequences of arbitrary length; parallel and degenerate edges.", "anchors": ["geometrix/algorithm/distance/segment_polyline_closest_point.hpp", "geometrix/algorithm/distance/segment_polygon_closest_point.hpp", "geometrix/algorithm/distance/segment_polyline_distance.hpp", "geometrix/algorithm/distance/segment_polygon_distance.hpp"]}
{"id": "C54", "title": "Closest points of two polylines or polygons", "statement": "polyline_polyline_closest_point and polygon_polygon_closest_point return the minimum squared distance of the two polylines or boundaries (closing edges included) and write the indices of two edges, parameters between 0 and 1 and two points, such that the points are the ones at the parameters of the edges and attain the minimum.", "quantifier": "all pairs of point sequences of any length >= 2, every tie-breaking of the priority queue", "why_tests_cant": "The search is used only for long inputs, and its outputs depend on where the minimum is attained.", "anchors": ["geometrix/algorithm/distance/polyline_polyline_closest_point.hpp", "geometrix/algorithm/distance/polygon_polygon_closest_point.hpp"]}
{"id": "C55", "title": "Identified polygon vertices are the removed ones", "statement": "identify_collinear_points_polygon and identify_adjacent_points_polygon return the positions of exactly those vertices that remove_collinear_points_polygon and coalesce_adjacent_points_polygon leave out.", "quantifier": "all polygons of any length", "why_tests_cant": "The positions matter only in relation to the run of collinear vertices, which can be anywhere in polygons of any length.", "anchors": ["geometrix/algorithm/point_sequence/remove_collinear_points.hpp: identify_collinear_points_polygon, identify_adjacent_points_polygon"]}
{"id": "C56", "title": "The mid point of a polyline halves its length", "statement": "polyline_mid_point returns a point of the polyline whose distance along the polyline from the start and to the end are both half of the total length.", "quantifier": "all polylines of positive length", "why_tests_cant": "Arbitrary numbers of edges, mid points on vertices, edges of length zero.", "anchors": ["geometrix/algorithm/point_sequence/polyline_mid_point.hpp"]}
{"id": "C57", "title": "Position of a point on a polyline", "statement": "point_on_polyline_length_characteristics returns for a point on a polyline the first edge that contains it and the lengths of the polyline before and after the point, which add up to the total length; for a point not on the polyline it returns the total length, zero and the largest index.", "quantifier": "all polylines and points", "why_tests_cant": "Points on vertices shared by edges and polylines of arbitrary length.", "anchors": ["geometrix/algorithm/point_sequence/length.hpp: point_on_polyline_length_characteristics"]}
{"id": "C58", "title": "Distance of a point from a line", "statement": "point_line_distance is the least distance of the point from the points of the line; signed_point_line_distance has the same absolute value and is positive exactly for points to the left of the line's direction.", "quantifier": "all points and all lines through two different points", "why_tests_cant": "A minimum over all points of a line and a sign for all positions.", "anchors": ["geometrix/algorithm/distance/point_line_distance.hpp", "geometrix/primitive/line.hpp"]}
{"id": "C59", "title": "Flood fill of a polygon visits whole columns once", "statement": "floodfill_grid_traversal for a polygon calls the visitor at most once for each cell, and the cells it is called for are, in each column, all those from the lowest to the highest cell met by the traversals of the polygon's edges.", "quantifier": "all grids, polygons and orders of the hash map", "why_tests_cant": "All polygons, grids and hash orders.", "anchors": ["geometrix/algorithm/floodfill_grid_traversal.hpp"]}
{"id": "C60", "title": "Tests for convex polygons and triangles", "statement": "The bisecting test for convex polygons, the test for convex quadrilaterals and the tests for triangles in the plane and in space succeed exactly for the points of the closed region.", "quantifier": "all strictly convex counterclockwise polygons of any length, all triangles, all points", "why_tests_cant": "All numbers of vertices and all positions of the point, including the points on the lines through the sides.", "anchors": ["geometrix/algorithm/point_in_polygon.hpp"]}
{"id": "C61", "title": "Matrix inverse is a two-sided inverse", "statement": "For a square matrix with a nonzero determinant, inverse(m) multiplied by m on either side is the identity matrix; the adjugate times the matrix is the determinant times the identity; for a singular matrix the inverse throws.", "quantifier": "for all square matrices of size at least 2 over an ordered field", "why_tests_cant": "The sign pattern and the transposition of the cofactors matter for every size and every entry; tests with symmetric or diagonal matrices do not see them.", "anchors": ["geometrix/arithmetic/matrix_arithmetic.hpp:215-270", "geometrix/arithmetic/detail/determinant.hpp:138-189", "geometrix/tensor/matrix_minor_adaptor.hpp:121-144"]}
{"id": "C51", "title": "Oriented intersection of segments", "statement": "oriented_intersection(p1,p2,p3,p4) of two segments of positive length reports e_non_crossing exactly if they have no common point, e_overlapping exactly if they have more than one, e_endpoint if they only share a common end, and otherwise e_intersect_left_right or e_intersect_right_left according to the direction in which p1p2 crosses the line from p3 to p4.", "quantifier": "all pairs of segments of positive length", "why_tests_cant": "All relative positions of four points, including every degenerate touching.", "anchors": ["geometrix/algorithm/orientation.hpp: oriented_intersection"]}
{"id": "C62", "title": "Concave vertices", "statement": "next_index and prev_index go round a polygon and are inverse to each other; is_point_concave is true exactly for the vertices where the polygon, taken counterclockwise, does not turn left, so never for a strictly convex counterclockwise polygon.", "quantifier": "all polygons and all vertex indices", "why_tests_cant": "Wrap-around at both ends for every length.", "anchors": ["geometrix/primitive/point_sequence_utilities.hpp: next_index, prev_index, is_point_concave"]}
{"id": "C63", "title": "First point of a ray, a segment or a polyline on a sphere", "statement": "ray_sphere_intersection (plane and space, unit direction) and segment_sphere_intersection are true exactly if the ray or segment has a point in the closed ball; the parameter is the smallest at which this is so (zero if the start is inside) and q is that point. The version with two parameters gives exactly the parameters in [0,1] at which the segment is on the circle. sphere_polyline_intersect calls the visitor exactly for the edges that meet the circle, in order, until it says stop.", "quantifier": "all rays, segments of positive length, polylines, centres and radii; all visitors", "why_tests_cant": "Tangent rays, starts on and inside the sphere, every radius and every visitor.", "anchors": ["geometrix/algorithm/intersection/ray_sphere_intersection.hpp: ray_sphere_intersection", "geometrix/algorithm/intersection/segment_sphere_intersection.hpp: segment_sphere_intersection", "geometrix/algorithm/intersection/sphere_polyline_intersection.hpp: sphere_polyline_intersect"]}
{"id": "C64", "title": "First contact of two moving spheres", "statement": "moving_sphere_sphere_intersection is true exactly if the two moving discs have a common point at some time from zero on; t is then the first such time and q is a point of both circles at that time.", "quantifier": "all pairs of discs and constant velocities", "why_tests_cant": "Continuous motion: every pair of positions, velocities and radii, grazing contacts and equal velocities among them.", "anchors": ["geometrix/algorithm/intersection/moving_sphere_sphere_intersection.hpp: moving_sphere_sphere_intersection"]}
{"id": "C65", "title": "First contact of a moving sphere with a line", "statement": "moving_sphere_plane_intersection with a unit normal is intersecting exactly if the moving disc meets the line at some time from zero on; t is the first such time; q is the point of the line closest to the centre at that time and is on the circle unless the disc overlaps the line at the start. It is intersecting and not penetrating exactly if the disc touches the line at the start; moving_away exactly if the centre never comes closer to the line than at the start.", "quantifier": "all discs with radius at least zero, all velocities (zero included), all lines with unit normal", "why_tests_cant": "Continuous motion; parallel motion, touching at the start and both sides of the line for every radius.", "anchors": ["geometrix/algorithm/intersection/moving_sphere_plane_intersection.hpp: moving_sphere_plane_intersection"]}
{"id": "C66", "title": "First contact of a moving sphere with a segment", "statement": "moving_sphere_segment_intersection is intersecting exactly if the moving disc meets the segment at some time from zero on; t is the first such time, and q is a point of the segment and of the closed disc at that time.", "quantifier": "all discs, all non-zero velocities, all segments of positive length", "why_tests_cant": "The first contact may be with the interior or with either end; all velocities and radii.", "anchors": ["geometrix/algorithm/intersection/moving_sphere_segment_intersection.hpp: moving_sphere_segment_intersection"]}
{"id": "C67", "title": "First contact of a moving sphere with a box", "statement": "moving_sphere_aabb_intersection is true exactly if the moving disc meets the box at some time from zero on; t is the first such time and q is a point of the box and of the circle at that time.", "quantifier": "all discs, all non-zero velocities, all boxes", "why_tests_cant": "Nine regions of contact and every direction of approach, rays through the corner regions that miss the corner among them.", "anchors": ["geometrix/algorithm/intersection/moving_sphere_aabb_intersection.hpp: moving_sphere_aabb_intersection"]}
{"id": "C68", "title": "First point of a segment in a capsule", "statement": "segment_capsule_intersection is true exactly if the segment has a point within the radius of the axis of the capsule; t is the smallest parameter of such a point and q is that point.", "quantifier": "all segments and capsules", "why_tests_cant": "Every way in which a segment can enter through the side or an end cap or miss a cap.", "anchors": ["geometrix/algorithm/intersection/segment_capsule_intersection.hpp: segment_capsule_intersection"]}
{"id": "C69", "title": "Common point of a segment and a plane", "statement": "segment_plane_intersection, for a segment not parallel to the line or plane, is true exactly if they have a common point; q is the only one and is at the parameter t of the segment. A parallel segment divides by zero.", "quantifier": "all segments in the plane and in space, all normals (of any length) and distances", "why_tests_cant": "Both ends on the plane, normals of every length and direction.", "anchors": ["geometrix/algorithm/intersection/segment_plane_intersection.hpp: segment_plane_intersection"]}
{"id": "C70", "title": "Sphere and oriented box", "statement": "sphere_obb_intersection is true exactly if the closed disc and the oriented box have a common point.", "quantifier": "all discs, all boxes with orthonormal axes and extents at least zero", "why_tests_cant": "Every turn of the box and every region of the centre.", "anchors": ["geometrix/algorithm/intersection/sphere_obb_intersection.hpp: sphere_obb_intersection"]}
{"id": "C71", "title": "Clipping the ends of a polyline", "statement": "clip_polyline_front and clip_polyline_back remove a part of exactly the given length from the front or the back, and clip_polyline_ends removes it from both: the result and what was removed make up the polyline. If the length exceeds that of the polyline, nothing is left.", "quantifier": "all plane polylines, all lengths at least zero, exact comparison", "why_tests_cant": "Any number of points, zero length edges, cuts at vertices and within edges.", "anchors": ["geometrix/algorithm/point_sequence/clip_polyline_ends.hpp: clip_polyline_front, clip_polyline_back, clip_polyline_ends"]}
{"id": "C72", "title": "Curvature of a polyline", "statement": "polyline_signed_curvature_at_index gives the reciprocal of the radius of the circle through the vertex and its neighbours, positive for left turns and negative for right turns, and zero at the ends; polyline_total_curvature_over_index, polyline_total_curvature and polyline_total_absolute_curvature weigh it with half the length of the edges at the vertex and add up. Equal points among a vertex and its neighbours lead to a division by zero.", "quantifier": "all plane polylines of which three consecutive vertices are distinct, all indices", "why_tests_cant": "Any number of points at any place; the circle is not computed by the code.", "anchors": ["geometrix/algorithm/point_sequence/curvature.hpp: polyline_signed_curvature_at_index, polyline_total_curvature_over_index, polyline_total_curvature, polyline_total_absolute_curvature"]}
{"id": "C73", "title": "Splitting a polyline by its curvature", "statement": "inflection_points gives in ascending order the indices where the curvature changes between negative and not negative. split_polyline_by_inflection_points cuts the polyline at exactly these. split_by_total_curvature cuts it as late as the given total curvature within a piece allows. The pieces have at least two points, each ends where the next begins, and together they are the polyline.", "quantifier": "all plane polylines with at least two points of which three consecutive vertices are distinct, all bounds of the curvature", "why_tests_cant": "Any number of vertices and cuts, including none and cuts next to the ends.", "anchors": ["geometrix/algorithm/point_sequence/curvature.hpp: inflection_points, split_polyline_by_inflection_points, split_by_total_curvature"]}
{"id": "C74", "title": "Self intersections of a polyline", "statement": "polyline_self_intersection calls the visitor once for each pair of edges that have more in common than the vertex between two consecutive edges, in ascending order of the pairs and with the correct kind and points, and returns true exactly if there is such a pair, so false exactly for a simple polyline.", "quantifier": "all plane polylines without edges of length zero, all visitors", "why_tests_cant": "Any number of vertices and of self intersections, including touching and overlapping edges.", "anchors": ["geometrix/algorithm/point_sequence/self_intersection.hpp: polyline_self_intersection"]}
{"id": "C75", "title": "Polylines and polygons inside a polygon", "statement": "polygon_polyline_containment answers true exactly if the polyline is not empty and all its points belong to the polygon or its border. polygon_polygon_containment answers true exactly if all points of the border of the first polygon belong to the second polygon or its border. segment_projects_outside_polygon answers true exactly if the segment reaches the border and some point of it is outside. A containing polygon with fewer than three vertices fails an assertion.", "quantifier": "all simple plane polygons without edges of length zero, all polylines and polygons without edges of length zero, all segments of nonzero length", "why_tests_cant": "The claim is about all points of the edges, while the code looks at finitely many; edges may run along the border, through vertices and notches.", "anchors": ["geometrix/algorithm/point_sequence/polygon_polyline_containment.hpp: polygon_polyline_containment", "geometrix/algorithm/point_sequence/polygon_polygon_containment.hpp: polygon_polygon_containment", "geometrix/algorithm/intersection/segment_projects_outside_polygon.hpp: segment_projects_outside_polygon"]}
{"id": "C76", "title": "Part of the border of a polygon near a point", "statement": "find_containing_polygon_border_segment gives the first side that contains the point, or nothing if the point is not on the border; find_closest_polygon_border_segment gives the first of the closest sides; find_containing_or_closest_polygon_border_segment the former if there is one, else the latter. polygon_subsequence gives a polyline that runs through exactly the points of the border which are reached from the given point within the given length along the border, one way or the other; its length is twice the given one. polygon_subsequence_half does the same for one direction.", "quantifier": "all plane polygons with two or more vertices without sides of length zero, all points (on the border for polygon_subsequence), all positive lengths, also beyond the perimeter", "why_tests_cant": "Any number of vertices, all positions and lengths; the claim is about all points of the result.", "anchors": ["geometrix/algorithm/point_sequence/find_subsequence.hpp: find_containing_polygon_border_segment, find_closest_polygon_border_segment, find_containing_or_closest_polygon_border_segment, polygon_subsequence_half, polygon_subsequence"]}
{"id": "C77", "title": "Intersection of convex polygons", "statement": "convex_polygons_intersection answers true exactly if the two polygons share a point, of their borders or their interiors.", "quantifier": "all pairs of strictly convex plane polygons with three or more vertices in clockwise or counterclockwise order", "why_tests_cant": "Any number of vertices and all positions; the claim is about the existence of a common point among infinitely many, and the bisection takes a different path for each direction.", "anchors": ["geometrix/algorithm/intersection/separating_axis_convex_polygons.hpp: convex_polygons_intersection", "geometrix/algorithm/intersection/detail/separating_axis_common.hpp: get_extreme_index"]}
{"id": "C78", "title": "Two moving boxes", "statement": "moving_obb_obb_intersection answers true exactly if the two oriented boxes, each moving with its constant velocity, share a point at some time between 0 and tmax. If so, tfirst is the first time from 0 on at which they share a point, tlast the last one, or infinity, and they share a point at all times between.", "quantifier": "all pairs of plane boxes with orthonormal axes and half widths that are not negative, all velocities, all tmax that are not negative", "why_tests_cant": "The claim is about all times and all points of two figures, also when they start in contact, only touch, or are at rest relative to each other.", "anchors": ["geometrix/algorithm/intersection/moving_obb_obb_intersection.hpp: moving_obb_obb_intersection", "geometrix/algorithm/intersection/detail/separating_axis_common.hpp: no_intersect"]}
{"id": "C79", "title": "Two moving convex polygons", "statement": "moving_convex_polygons_intersection answers true exactly if the two polygons, each moving with its constant velocity, share a point at some time between 0 and tmax. If so, tfirst is the first time from 0 on at which they share a point, tlast the last one, or infinity, and they share a point at all times between.", "quantifier": "all pairs of strictly convex plane polygons with three or more vertices in clockwise or counterclockwise order, all velocities, all tmax that are not negative", "why_tests_cant": "Any number of vertices; the claim is about all times and all points of two figures.", "anchors": ["geometrix/algorithm/intersection/moving_separating_axis_convex_polygons.hpp: moving_convex_polygons_intersection", "geometrix/algorithm/intersection/detail/separating_axis_common.hpp: compute_interval, get_extreme_index, no_intersect"]}
{"id": "C80", "title": "Points in a solid leaf tree", "statement": "The solid leaf tree built from the sides of a solid, each with the solid to its right, classes a point as on the boundary exactly if it is on a side, as in the solid exactly if it is in the solid and on no side, and as in empty space otherwise, whichever of the selector policies is used.", "quantifier": "all non-empty lists of directed plane segments, with different ends, that are the border of a solid to their right, both selector policies, all points", "why_tests_cant": "The claim is about all points of the plane and all shapes of trees; points on the lines of the sides, where cells meet, are the hard case.", "anchors": ["geometrix/algorithm/solid_leaf_bsp_tree.hpp: solid_leaf_bsp_tree, build_tree, split_simplex, point_in_solid_space", "geometrix/algorithm/classify_simplex_to_plane.hpp: classify_point_to_plane, classify_simplex_to_plane", "geometrix/algorithm/hyperplane_partition_policies.hpp: autopartition_policy, scored_selector_policy", "geometrix/primitive/hyperplane_traits.hpp: make_hyperplane"]}
{"id": "C81", "title": "The distance from the border of a solid leaf tree", "statement": "get_min_distance_sqrd_to_solid gives the smallest squared distance of the point from the sides, and the number of a side at this distance; without a side it gives infinity.", "quantifier": "all lists of plane segments with different ends, both selector policies, all points", "why_tests_cant": "Subtrees are skipped by a bound; that no skipped subtree holds a closer side is a claim about all trees and all points.", "anchors": ["geometrix/algorithm/solid_leaf_bsp_tree.hpp: get_min_distance_sqrd_to_solid, get_min_distance_sqrd_to_solid_impl, build_tree"]}
{"id": "C82", "title": "Rays and a solid leaf tree", "statement": "ray_intersection gives the first parameter at which the ray is on a side, or zero if it starts in the solid, and no hit if the ray meets neither a side nor the solid. The number given is the number of a side that contains the point. ray_intersection_only_border gives the first parameter at which the ray is on a side.", "quantifier": "all non-empty lists of directed plane segments, with different ends, that are the border of a solid to their right, both selector policies, all starting points and directions", "why_tests_cant": "The claim is about all points of all rays; rays through vertices, along sides and from points on the lines of the sides are the hard cases.", "anchors": ["geometrix/algorithm/solid_leaf_bsp_tree.hpp: ray_intersection, ray_intersection_only_border, ray_intersection_impl, find_closest_hit"]}
{"id": "C83", "title": "Locating a point with a node tree", "statement": "The constructor of node_bsp_tree_2d and insert succeed. locate_point gives e_inside for a point inside, e_outside for a point outside, and e_boundary for a point of a side.", "quantifier": "all non-empty lists of directed plane segments that are the border of a set to their left, any division of the list into the range given to the constructor and ranges given to insert, any selector that answers with one of the segments (in particular the policies of the library), all points", "why_tests_cant": "The tree depends on the selector and on how the segments are cut; points on the lines of the splitting segments take other branches and the claim is about all of them.", "anchors": ["geometrix/algorithm/node_bsp_tree_2d.hpp: node_bsp_tree_2d, insert, classify, locate_point, first_segment_selector_policy, scored_segment_selector_policy"]}
{"id": "C84", "title": "Painter's traversal of a node tree", "statement": "painters_traversal visits every part of every segment exactly once, and from the back to the front: no point of a visited segment is, seen from the given point, in front of a point of a segment visited later.", "quantifier": "all non-empty lists of segments with different ends, which may cross each other, all trees made of them by the constructor and insert, all viewpoints", "why_tests_cant": "The order must be right for all pairs of points of all pairs of visited parts, for each viewpoint.", "anchors": ["geometrix/algorithm/node_bsp_tree_2d.hpp: painters_traversal, classify"]}
{"id": "C85", "title": "The scored selector of the node tree", "statement": "scored_segment_selector_policy answers with a segment for which 0.8 times the number of other segments cut by its line plus 0.2 times the difference between the numbers of segments in front of and behind its line is smallest.", "quantifier": "all non-empty lists of segments with different ends", "why_tests_cant": "Any choice gives a tree with right answers, so a wrong score is not visible in the results of the tree.", "anchors": ["geometrix/algorithm/node_bsp_tree_2d.hpp: scored_segment_selector_policy"]}
{"id": "C86", "title": "Construction of a triangle mesh", "statement": "The constructor of mesh_2d_base asserts that all indices are in range. The mesh has one triangle for each triple of indices whose three points make a non-degenerate triangle, in the order given, with the vertices in counterclockwise order, and the table of areas holds for each triangle the share of the total area that it and the triangles before it have.", "quantifier": "all lists of points and lists of indices, of any length (also not divisible by three), all orders of the vertices", "why_tests_cant": "Tests use a few small meshes; the claim is about all of them, with repeated points, clockwise triples and flat triangles.", "anchors": ["geometrix/algorithm/mesh_2d.hpp: mesh_2d_base constructor, calculate_weights"]}
{"id": "C87", "title": "Random positions in a mesh", "statement": "get_random_position gives, for three numbers between 0 and 1, a point of a triangle of the mesh, and asserts that the numbers are in that range. For numbers that are uniformly distributed and independent the position is uniformly distributed in the mesh: a set of points is hit with the probability that is its share of the area of the mesh. In particular a triangle is chosen with its share of the area, and every part of it cut off parallel to the opposite side and through the first vertex gets its share of the numbers.", "quantifier": "all meshes with a triangle of positive area, all triples of numbers, all sets of points with an area", "why_tests_cant": "A distribution is not visible in any single answer; the map from numbers to points is described for all numbers.", "anchors": ["geometrix/algorithm/mesh_2d.hpp: get_random_position"]}
{"id": "C88", "title": "Adjacency of the triangles of a mesh", "statement": "get_adjacency_matrix has, for a triangle and the number of a side, the index of a triangle that has this side in the other direction, and the largest value of size_t exactly if there is none. In a mesh in which no side occurs twice in the same direction the relation is mutual. get_triangle_adjacent_side gives the number of the first side which the other triangle has in the other direction and asserts that there is one.", "quantifier": "all lists of triangles given by indices, all pairs of triangles", "why_tests_cant": "The matrix is built from a map from sides to triangles; all meshes of any size, with several triangles at one side, are included.", "anchors": ["geometrix/algorithm/mesh_2d.hpp: get_adjacency_matrix, get_triangle_indices, is_adjacent_side, get_triangle_adjacent_side"]}
{"id": "C89", "title": "Test of a triangle and a box", "statement": "eberly_triangle_aabb_intersection_2d gives true exactly if the closed triangle and the closed box have a common point. With an absolute tolerance it gives true for every triangle with a point in the box and false for every triangle without a point in the box made wider by the tolerance. Two equal vertices make the normalisation of a side fail its assertion.", "quantifier": "all triangles, also with vertices on one line, and all boxes, also of width or height 0", "why_tests_cant": "A missing or wrong axis is visible only for triangles that pass by a corner of the box in a particular direction.", "anchors": ["geometrix/algorithm/eberly_triangle_aabb_intersection.hpp: eberly_triangle_aabb_intersection_2d"]}
{"id": "C90", "title": "Finding the triangle of a point", "statement": "The constructor of mesh_2d succeeds for a mesh with a triangle of positive area. find_triangle succeeds for every point and gives the index of the first triangle of the mesh that contains the point, and none if the point is in no triangle.", "quantifier": "all meshes whose coordinates differ by less than 2^32 - 6, all points, inside and outside the grid of the cache", "why_tests_cant": "The answer goes through a grid of cells with sets of triangles; a triangle missing in the set of one cell is visible only for points in the part of the triangle in that cell.", "anchors": ["geometrix/algorithm/mesh_2d.hpp: triangle_grid_cache, mesh_2d constructor, find_triangle", "geometrix/algorithm/eberly_triangle_aabb_intersection.hpp: eberly_triangle_aabb_intersection_2d", "geometrix/algorithm/grid_2d.hpp", "geometrix/algorithm/grid_traits.hpp"]}
{"id": "C91", "title": "Polylines, polygons and boxes", "statement": "polyline_aabb_intersection gives true exactly if the polyline and the closed box have a common point, and polygon_aabb_intersection gives true exactly if the box has a common point with the border of the polygon or with its inside by the parity rule.", "quantifier": "all polylines, all polygons of any number of vertices, simple or not, all boxes", "why_tests_cant": "The polygon test looks at the corners of the box and at the sides only; that this suffices for every shape, also for a polygon inside the box and a box inside the polygon, needs an argument about all positions.", "anchors": ["geometrix/algorithm/intersection/polyline_aabb_intersection.hpp: polyline_aabb_intersection", "geometrix/algorithm/intersection/polygon_aabb_intersection.hpp: polygon_aabb_intersection"]}
{"id": "C92", "title": "Segments and the border of a polygon", "statement": "segment_polygon_border_intersect calls the visitor once for every side of the polygon that meets the segment, in the order of the sides and with the closing side last, with the indices of the ends of the side, the type and the points of the intersection of the two segments, until the visitor asks to stop. It gives true exactly if the segment meets the border.", "quantifier": "all segments of positive length, all polygons of two or more vertices without sides of length zero, all visitors with a state", "why_tests_cant": "The calls depend on every side and on the state of the visitor; polygons of any size are included.", "anchors": ["geometrix/algorithm/intersection/segment_polygon_intersection.hpp: segment_polygon_border_intersect"]}
{"id": "C93", "title": "Intersection of two convex polygons", "statement": "For two strictly convex polygons convex_polygon_polygon_intersection ends after at most 4 (n + m) turns and gives none exactly if they have no common point, face with the ends of the segment if their common part is a segment between two sides, and otherwise overlapping, with the vertices of the common part given to the visitor. If one polygon is inside the other, the visitor gets the vertices of the inner one.", "quantifier": "all pairs of strictly convex counterclockwise polygons of any sizes", "why_tests_cant": "The walk around the two borders depends on the relative position of all sides; the bound on the turns and the truth of the answers are for polygons of any size.", "anchors": ["geometrix/algorithm/intersection/convex_polygon_polygon_intersection.hpp: convex_polygon_polygon_intersection"]}
{"id": "C94", "title": "Segments in a range of directions", "statement": "is_segment_in_range_2d gives true exactly if the segment meets the cone that starts at the origin given and lies between the two directions. The overload with points gives true in the same cases and writes the two ends of the part of the segment in the cone.", "quantifier": "all segments, all origins, all pairs of directions with the second to the left of the first", "why_tests_cant": "The answer is put together from signs of cross and scalar products and up to two intersections; the truth for all positions of the ends relative to the two lines needs a proof.", "anchors": ["geometrix/algorithm/is_segment_in_range.hpp: is_segment_in_range_2d (both overloads)"]}
{"id": "C95", "title": "Side of a polyline", "statement": "point_polyline_orientation gives collinear for points of the polyline, and otherwise left if the point is on the left of the polyline at its closest point and right if it is on the right: at a point inside an edge the sides are those of the edge, at a vertex they are the sectors between the edge that goes on and the edge that comes in, and at the ends those of the first or last edge.", "quantifier": "all points, all polylines of two or more vertices without edges of length zero that do not turn back onto themselves", "why_tests_cant": "The answer depends on the closest segment and on the turn at a vertex; that the vertex cases agree with the sectors for every polyline needs a proof.", "anchors": ["geometrix/algorithm/point_sequence/point_polyline_orientation.hpp: point_polyline_orientation (both overloads)"]}
{"id": "C96", "title": "Interpolation and projection of vectors", "statement": "slerp of two unit vectors gives a unit vector in their plane at the angle t times the angle between them from the first, and the two vectors for t = 0 and t = 1. lerp gives the unit vector in the direction of u + t (v - u). vector_projection gives the multiple of the second vector closest to the first, and the difference is orthogonal to it.", "quantifier": "all vectors of any dimension, all t", "why_tests_cant": "The claims are identities of trigonometric functions and square roots over all vectors of all dimensions.", "anchors": ["geometrix/arithmetic/vector/slerp.hpp: slerp", "geometrix/arithmetic/vector/lerp.hpp: lerp", "geometrix/algebra/vector_projection.hpp: vector_projection"]}
{"id": "C97", "title": "Polylines parallel to a polyline", "statement": "polyline_offset gives a polyline with as many vertices, each edge of which lies on the line at the given distance on the given side of the edge with the same number, and whose ends are straight across from the ends of the polyline. The untrimmed offset has for each edge an edge on that line, and its other edges join two points at the distance from an inner vertex.", "quantifier": "all polylines of any number of vertices, both sides, all distances", "why_tests_cant": "It is a statement about all vertices of polylines of any length with real coordinates, and the normals need square roots.", "anchors": ["geometrix/algorithm/point_sequence/polyline_offset.hpp: polyline_offset", "geometrix/algorithm/point_sequence/polyline_offset.hpp: detail::untrimmed_offset", "geometrix/arithmetic/vector/perp.hpp: oriented_normal"]}
{"id": "C98", "title": "Cutting a polyline where it meets itself", "statement": "self_intersection_set has, in order along the polyline, the ends of the common part of any two edges that meet, for both edges. split gives the pieces of the polyline between the given points, which together have the points of the polyline. liu_polyline_offset gives the pieces of the untrimmed offset that keep the distance from the polyline.", "quantifier": "all polylines without edges of length zero, all lists of points on their edges", "why_tests_cant": "The number of vertices, cuts and pieces is unbounded, and the claim that the pieces cover the polyline is about infinitely many points.", "anchors": ["geometrix/algorithm/point_sequence/polyline_offset.hpp: detail::self_intersection_set", "geometrix/algorithm/point_sequence/polyline_offset.hpp: detail::split", "geometrix/algorithm/point_sequence/polyline_offset.hpp: liu_polyline_offset"]}
{"id": "C99", "title": "Which segment divides the others in a solid leaf tree", "statement": "autopartition_policy selects the first segment that is not yet used. scored_selector_policy selects, of the segments not yet used, the first with the lowest score, where the score of a segment is four fifths of the number of other segments its line cuts plus one fifth of the difference between the numbers of other segments in front of and behind its line. Both select none if all segments are used.", "quantifier": "all lists of segments with their lines", "why_tests_cant": "The score sums over all pairs of segments; tests fix a few lists and see only the tree that results, which is correct for any selection.", "anchors": ["geometrix/algorithm/hyperplane_partition_policies.hpp: autopartition_policy", "geometrix/algorithm/hyperplane_partition_policies.hpp: scored_selector_policy"]}
{"id": "C100", "title": "Traversal of a grid guided by orientations", "statement": "orientation_segment_traversal calls the visitor for no cell if the segment does not meet the grid. Else it starts with the cell of the lexicographically first point of the segment in the grid and ends with the cell of the last, each cell shares an edge or corner with the one before, no cell is visited twice, each cell visited meets the segment, and each cell whose interior meets the segment is visited.", "quantifier": "all grids and all segments", "why_tests_cant": "Grids, slopes and positions are unbounded; segments through corners of cells and the wrap around of the index are easily missed.", "anchors": ["geometrix/algorithm/orientation_grid_traversal.hpp: orientation_segment_traversal"]}
{"id": "C101", "title": "Intersection of a segment and a triangle", "statement": "segment_triangle_intersect with an array writes exactly the description of the part of the segment in the triangle and returns the number of points: none when there is no common point, the point when there is exactly one, and otherwise the two different ends of the common part. Without an array it returns true exactly when there is a common point.", "quantifier": "all segments that are not points and all triangles; the test also for segments that are points", "why_tests_cant": "The cases of corners hit, sides overlapped and ends inside combine freely, and the order of the corners matters; tests use a few triangles of one orientation.", "anchors": ["geometrix/algorithm/intersection/segment_triangle_intersection.hpp: segment_triangle_intersect"]}
{"id": "C102", "title": "Eberly's squared distance of two segments", "statement": "eberly_segment_segment_distance_sqrd returns the least squared distance of a point of the first segment and a point of the second.", "quantifier": "all pairs of segments", "why_tests_cant": "The code has ten regions and several branches in each, chosen by the signs of expressions in eight coordinates; the only test uses one pair of segments.", "anchors": ["geometrix/algorithm/distance/eberly_segment_segment_distance.hpp: eberly_segment_segment_distance_sqrd"]}
{"id": "C103", "title": "Transformations between Cartesian and polar coordinates", "statement": "Transforming a Cartesian point to polar coordinates gives a radius equal to the length of the point and angles in the ranges of polar coordinates, and transforming back gives the same point. The transformation to Cartesian coordinates follows the standard formula, and transforming a polar point with positive radius and angles inside the ranges there and back gives the same polar point.", "quantifier": "all points of any dimension from 2 on", "why_tests_cant": "The recursion is over the dimension at compile time; tests instantiate two or three dimensions with a few points.", "anchors": ["geometrix/space/cartesian_polar_transformation.hpp: reference_frame_transformation", "geometrix/space/polar_cartesian_transformation.hpp: reference_frame_transformation"]}
{"id": "C104", "title": "Equality of point sequences and polygons", "statement": "point_sequences_equal returns true exactly if the sequences are equal. polygons_equal with an offset returns true exactly if the second polygon started at the offset is the first. polygon_polygon_offset returns, for two polygons that differ in the start only, the offset for which polygons_equal returns true, and the largest number if the first point is not found.", "quantifier": "all sequences of points and all offsets", "why_tests_cant": "Sequences are unbounded and points may occur twice.", "anchors": ["geometrix/primitive/point_sequence_utilities.hpp: point_sequences_equal", "geometrix/primitive/point_sequence_utilities.hpp: polygons_equal", "geometrix/primitive/point_sequence_utilities.hpp: polygon_polygon_offset"]}
{"id": "C105", "title": "Order of points by distance", "statement": "distance_compare is a strict weak ordering of points whose relation is to be nearer to the fixed point.", "quantifier": "all fixed points, all points, all comparison policies", "why_tests_cant": "The laws of an ordering quantify over all triples of points.", "anchors": ["geometrix/algorithm/distance/distance_compare.hpp: distance_compare"]}
{"id": "C106", "title": "A moving sphere and an oriented box", "statement": "moving_sphere_obb_intersection, for a sphere of positive radius that moves with a velocity other than zero and an oriented box with orthogonal unit axes, answers true exactly if the sphere meets the box at some time t >= 0; t is then the first such time, and q is a point of the box on the sphere at that time.", "quantifier": "all centres, radii, velocities and oriented boxes, with either handedness of the axes", "why_tests_cant": "The answer depends on which face or corner region of the rotated and enlarged box the centre enters, and on where the motion starts; tests have a few boxes, mostly with the standard axes, and starts far away.", "anchors": ["geometrix/algorithm/intersection/moving_sphere_obb_intersection.hpp:69-161", "geometrix/algorithm/rotation.hpp:24-57", "geometrix/primitive/oriented_bounding_box.hpp:29-113"]}
{"id": "C107", "title": "The intersection of two segments in space", "statement": "segment_segment_intersection for points of space answers e_non_crossing exactly if the two segments have no common point; e_crossing or e_endpoint if they have exactly one, which is written to iPoint[0], where e_endpoint means that the point is an end of one of the segments; and e_overlapping if they share a segment, whose ends are written to iPoint[0] and iPoint[1].", "quantifier": "all pairs of segments in space, including parallel, collinear and degenerate ones", "why_tests_cant": "Segments in space that meet are exceptional, so random tests see almost only e_non_crossing; the cases with an end of one segment on the other, and with degenerate segments, need exact positions.", "anchors": ["geometrix/algorithm/intersection/segment_segment_intersection.hpp:205-304"]}
{"id": "C108", "title": "One coordinate from the other on the line through two points", "statement": "get_slope, y_of_x and x_of_y give the slope and the missing coordinate of the point with the given coordinate on the line through two points, whenever the line determines it; the variants with rational numbers do so exactly for integer coordinates.", "quantifier": "all pairs of points and all given coordinates, with real and with integer coordinates", "why_tests_cant": "Vertical and horizontal lines and integer slopes are special positions; the type of the coordinates changes the meaning of the division, and each test fixes one type.", "anchors": ["geometrix/utility/utilities.hpp:288-355", "geometrix/numeric/rational_utilities.hpp:20-95"]}
{"id": "C109", "title": "The calculator of pi", "statement": "calculate_pi<T, Precision>::pi() returns pi to Precision digits, that is pi cut after Precision - 1 digits behind the point, for each Precision that the static assertion accepts, without overflow.", "quantifier": "all precisions from 1 to 54899", "why_tests_cant": "Each precision is an own instantiation of the template; a wrong digit shows only at precisions at which a group of digits is cut or begins with zero, and a double is too short to show most of them.", "anchors": ["geometrix/numeric/integral_constant_pi_calculator.hpp:27-178"]}
{"id": "C110", "title": "Intersections of many segments by a sweep", "statement": "bentley_ottmann_segment_intersection calls the visitor once for every point in which at least two segments meet, other than points in the middle of all segments through them when these lie on one line; in lexicographical order; each time with exactly the segments through that point, in the order of the vector; and it ends.", "quantifier": "all vectors of segments, with vertical, overlapping, equal and touching segments and any number of segments through one point", "why_tests_cant": "The result depends on the order of all segments along the sweep line at each event, on ties at multiple crossings, and on which pairs were neighbours; a lost neighbour pair shows only in special arrangements.", "anchors": ["geometrix/algorithm/bentley_ottmann_segment_intersection.hpp:28-408", "geometrix/algorithm/bentley_ottmann_sweep.hpp:19-97"]}
{"id": "C111", "title": "Segments are linked to polylines and polygons", "statement": "make_dcel on a collection of segments gives polylines and polygons such that the pairs of successive points of the polylines and the sides of the polygons are exactly the segments, with their direction, and no point occurs twice; every polyline has at least two points.", "quantifier": "for all collections of segments of which no two have the same start and no two the same end, in any order", "why_tests_cant": "The order in which the segments are given, and the way they are joined, are unbounded; tests take a few squares. The loops of the code have no bound of their own.", "anchors": ["geometrix/algorithm/doubly_connected_edge_list.hpp:95-122", "geometrix/algorithm/doubly_connected_edge_list.hpp:134-223", "geometrix/algorithm/doubly_connected_edge_list.hpp:247-277"]}
{"id": "C112", "title": "The orientation predicate with rounding", "statement": "With floating point numbers get_orientation reports the side on which the third point lies: exactly for integer coordinates that are small enough and for triangles that are not too thin; never the wrong side for two vectors, nor with an absolute tolerance above the rounding error; and exchanging the last two points gives the opposite answer.", "quantifier": "all points, all rounding functions that keep the order and have a bounded relative error; for integers all rounding precisions", "why_tests_cant": "Wrong answers occur only for nearly collinear points, where a few last bits decide; the number of triples of floating point points is far too large to try.", "anchors": ["geometrix/algorithm/orientation.hpp:36-49", "geometrix/numeric/number_comparison_policy.hpp:390-434"]}
{"id": "C113", "title": "The cells of a grid with rounding", "statement": "With floating point numbers every point in the bounds of a grid_traits has indices below the width and the height, the indices grow with the coordinates, and the point lies in the box that get_cell_aabb gives for its indices.", "quantifier": "all grids that do not wrap their width or height, all points in the bounds, all rounding functions that keep the order", "why_tests_cant": "An index out of range would occur only for single coordinates at the upper bound of single grids, depending on the last bit of three rounded results.", "anchors": ["geometrix/algorithm/grid_traits.hpp:35-66", "geometrix/algorithm/grid_traits.hpp:74-84", "geometrix/algorithm/grid_traits.hpp:111-119"]}
{"id": "C114", "title": "Squared distances and dot products with rounding", "statement": "With floating point numbers and without underflow point_point_distance_sqrd is not negative, symmetric, zero exactly for equal points, and has a relative error of at most four roundings; dot_product is symmetric and has an error of at most two roundings relative to the sum of the absolute values of its terms.", "quantifier": "all points and vectors, all rounding functions that keep the order and have a bounded relative error", "why_tests_cant": "An error bound is a claim about all numbers; tests compare single results with a tolerance.", "anchors": ["geometrix/algorithm/distance/point_point_distance.hpp:71-82", "geometrix/algorithm/distance/point_point_distance.hpp:126-134", "geometrix/algebra/detail/dot_product.hpp"]}
{"id": "C115", "title": "The search of a mesh for visible vertices", "statement": "mesh_2d::search with a visible_vertices_mesh_search for a point inside a triangle ends, and get_vertices then returns, each once, exactly the vertices of the mesh that are seen from the point: those for which the whole segment from the point is in the mesh.", "quantifier": "all triangle meshes, all points inside one of their triangles", "why_tests_cant": "The search follows cones through chains of triangles of any length; a test sees one mesh, and a mesh on which the search does not end looks like a slow test.", "anchors": ["geometrix/algorithm/mesh_2d.hpp:280-326", "geometrix/algorithm/visible_vertices_mesh_search.hpp:43-180"]}
{"id": "C116", "title": "The exact operations of the robust predicates", "statement": "After exactinit, the macros of predicates.hpp split the result of an operation into the rounded result and exactly what rounding left out: Two_Sum, Two_Diff, Two_Product, Square for all numbers, Fast_Two_Sum and Fast_Two_Diff if the first number is not the smaller one; Split gives two halves whose sum is the number. exactinit ends and finds the unit of rounding and the error bounds.", "quantifier": "all floating point numbers with at least 6 bits, rounding to nearest with ties to even, no overflow or underflow", "why_tests_cant": "The error of one operation is exact for all 2^128 pairs of doubles or it is not exact; a test can only draw a few of them, and the pairs where a tie is rounded to even are rare.", "anchors": ["geometrix/algorithm/predicates.hpp:161-248", "geometrix/algorithm/predicates.hpp:643-683"]}
{"id": "C117", "title": "Sums of expansions", "statement": "grow_expansion, expansion_sum, fast_expansion_sum and their variants without zeros return an expansion whose sum is exactly the sum of the arguments. The results are nonoverlapping, nonadjacent or strongly nonoverlapping if the arguments are so, as the comments of the file say. estimate returns the value of an expansion up to two units of rounding. No function reads behind its arrays.", "quantifier": "all expansions of all lengths of floating point numbers with at least 6 bits", "why_tests_cant": "The number of expansions is unbounded, and the ones that lose a property need particular bits in several components.", "anchors": ["geometrix/algorithm/predicates.hpp:684-1092", "geometrix/algorithm/predicates.hpp:1385-1404"]}
{"id": "C118", "title": "The exact orientation predicate", "statement": "After exactinit, orient2d and orient2dexact return a positive number if the three points make a left turn, a negative one if they make a right turn, and zero if and only if they are collinear, without reading behind an array; orient2dfast is off by a few units of rounding.", "quantifier": "all points whose coordinates are floating point numbers with at least 6 bits, no overflow or underflow", "why_tests_cant": "The predicate is there for the points on which rounding fails; whether its four stages hand over at the right error bound cannot be seen from points that a test draws at random.", "anchors": ["geometrix/algorithm/predicates.hpp:1432-1489", "geometrix/algorithm/predicates.hpp:1535-1653"]}
{"id": "C119", "title": "Products, linear sums and compression of expansions", "statement": "scale_expansion multiplies an expansion by a number exactly, linear_expansion_sum adds two nonoverlapping expansions exactly, and compress keeps the value; so do the variants without zeros. scale_expansion keeps expansions nonoverlapping, nonadjacent and strongly nonoverlapping, linear_expansion_sum keeps them nonoverlapping, and compress makes a nonoverlapping expansion nonadjacent, as the comments of the file say. No function reads behind its arrays.", "quantifier": "all expansions of all lengths of floating point numbers with at least 6 bits", "why_tests_cant": "The number of expansions is unbounded, and the ones that lose a property need particular bits in several components.", "anchors": ["geometrix/algorithm/predicates.hpp:1094-1382"]}
{"id": "C120", "title": "The exact predicates for planes, circles and spheres", "statement": "After exactinit, orient3dexact, incircleexact and insphereexact return a number with the sign of the exact determinant: it says on which side of a plane a point lies, and whether a point is inside, on or outside the circle or sphere through given points. No array is written or read behind its end. orient3dfast, incirclefast and inspherefast are off by at most 8, 11 and 16 roundings of the sizes of the products.", "quantifier": "all points whose coordinates are floating point numbers with at least 6 bits, no overflow or underflow; the bounds for the fast functions for every rounding with a relative error", "why_tests_cant": "The functions are there for points on which rounding fails, such as points that are cospherical or nearly so; the lengths of the expansions, up to 5760 components, reach the lengths of the arrays only for special inputs.", "anchors": ["geometrix/algorithm/predicates.hpp:1684-1788", "geometrix/algorithm/predicates.hpp:2362-2489", "geometrix/algorithm/predicates.hpp:3298-3601"]}
{"id": "C121", "title": "The adaptive orientation predicate in space", "statement": "After exactinit, orient3d returns a number with the sign of the exact determinant of the differences of three points to the fourth, whichever of its four stages it ends in: the error bounds of the first three stages are large enough, and the last stage is exact. So it is zero if and only if the points are in one plane. No array is written or read behind its end.", "quantifier": "all points whose coordinates are floating point numbers with at least 10 bits, no overflow or underflow", "why_tests_cant": "A bound that is too small gives a wrong sign only for few of the points that are nearly in one plane, and the last stage has 2^9 combinations of tails that are zero or not.", "anchors": ["geometrix/algorithm/predicates.hpp:1886-2334", "geometrix/algorithm/predicates.hpp:643-683"]}
{"id": "C122", "title": "The adaptive test for circles", "statement": "After exactinit, incircle returns a positive number if the fourth point is inside the circle through the first three, a negative number if it is outside, and zero if it is on the circle, for three points that turn left; in general a number with the sign of the exact determinant, whichever of its four stages it ends in. No array is written or read behind its end, and no array is read that was not filled.", "quantifier": "all points whose coordinates are floating point numbers with at least 10 bits, no overflow or underflow", "why_tests_cant": "Wrong signs would appear only for points that are nearly on one circle, and the last stage has 2^6 combinations of tails that are zero or not, each with its own sums; the longest expansion, with 1152 components, is needed only for special points.", "anchors": ["geometrix/algorithm/predicates.hpp:2651-3269", "geometrix/algorithm/predicates.hpp:643-683"]}
{"id": "C123", "title": "Expressions of vectors, points and matrices", "statement": "lhs <<= e, for an expression e built with the operators +, -, *, /, ^, & and the functions abs, rec, trans, det, inv, mag and norm from scalars, vectors, points and matrices, compiles if e is well formed by the rules of linear algebra and lhs has the shape of e. Afterwards lhs holds the elements that linear algebra gives e, also if lhs itself occurs in e, and no other variable has changed. If somewhere in e there is a division by zero, the inverse of a singular matrix or the direction of a null vector, the statement ends in an error instead. An expression that is not well formed does not compile.", "quantifier": "all expressions, of any depth, over variables of any sizes, all values of the variables", "why_tests_cant": "There are infinitely many expressions; tests combine a few operators at sizes 2 and 3 with square matrices, and which combinations compile shows only when someone writes them.", "anchors": ["geometrix/algebra/expression_generator.hpp:76-338", "geometrix/algebra/grammar.hpp:142-233", "geometrix/algebra/functions/multiplication.hpp:23-200", "geometrix/algebra/functions/dot_product.hpp:27-165", "geometrix/algebra/functions/tensor_product.hpp:27-145", "geometrix/algebra/functions/cross_product.hpp:53-140"]}
{"id": "C124", "title": "Matrices composed of blocks", "statement": "as_matrix<Rows,Columns>(a, b, ...) lays out its arguments in reading order: if the blocks can cover a matrix of that size exactly once so that their upper left corners are in reading order, then get<i,j> of the result is the element of the block that covers that place, at the place relative to the corner of the block. If they cannot, the program does not compile.", "quantifier": "all numbers of blocks of all sizes, all places", "why_tests_cant": "The layout is computed at compile time from the sizes of all blocks. The test prints the names of a few layouts and the elements of two matrices without comparing them to anything.", "anchors": ["geometrix/tensor/detail/as_matrix.hpp:49-400", "geometrix/tensor/detail/as_matrix.hpp:710-809", "geometrix/tensor/detail/preprocessed/as_matrix.hpp:20-340"]}
{"id": "C125", "title": "Homogeneous coordinates, traces and identity matrices", "statement": "A product of matrices of affine maps, with any parentheses, applied to as_positional_homogeneous(p) of a point p and assigned to a point gives p moved by the maps, the rightmost first; applied to as_vectoral_homogeneous(v) of a vector v it gives v moved by their linear parts alone, translations having no effect. The last homogeneous coordinate stays 1 or 0. Multiplication with identity_matrix, or with a matrix initialised by GEOMETRIX_ENUM_IDENTITY_MATRIX_SEQUENCE, changes nothing. trace(m) of a square matrix is the sum of its diagonal, and trace(a * b) = trace(b * a); a matrix that is not square has no trace and the call does not compile.", "quantifier": "all dimensions, all numbers of matrices and all ways to put the parentheses, all values", "why_tests_cant": "The tests apply one or two fixed matrices to one point with a tolerance and test neither vectors, nor other parentheses, nor the trace of any size.", "anchors": ["geometrix/tensor/homogeneous_adaptor.hpp:20-190", "geometrix/arithmetic/matrix/trace.hpp:17-68", "geometrix/tensor/identity_matrix.hpp:19-64"]}
{"id": "C126", "title": "The adaptive test for spheres", "statement": "After exactinit, insphere returns a positive number if the fifth point is inside the sphere through the first four, a negative number if it is outside, and zero if it is on the sphere, for four points with a positive orientation; in general a number with the sign of the exact determinant, whichever of its four stages it ends in. No array is written or read behind its end.", "quantifier": "all points whose coordinates are floating point numbers with at least 10 bits, no overflow or underflow", "why_tests_cant": "The error bounds of the second and third stage have margins of a few units of the second order of rounding, about 2^-104 of the size of the products for double, so that no random test reaches determinants for which they matter.", "anchors": ["geometrix/algorithm/predicates.hpp:3937-4262", "geometrix/algorithm/predicates.hpp:643-683"]}
{"id": "C127", "title": "Polygons with holes", "statement": "After any calls of set_outer(q) and add_hole(q) on a polygon_with_holes, get_outer() is the polygon of the last set_outer and get_holes() are the polygons of the calls of add_hole in their order; q itself is unchanged unless the caller wrote std::move(q). polygon_with_holes_as_segment_range returns the sides of the outer polygon and of all holes, in order, each from a point to the next and the last from the last point to the first.", "quantifier": "all sequences of calls, all ways to pass the arguments, all polygons", "why_tests_cant": "The tests only pass temporaries or constants and polygons of three or more points; the loss of the caller's polygon depends on how the argument is written.", "anchors": ["geometrix/primitive/polygon_with_holes.hpp:28-130", "geometrix/algorithm/polygon_with_holes_as_segment_range.hpp:15-40"]}
{"id": "C128", "title": "The constants", "statement": "constants::pi, two_pi, half_pi, e and sqrt_2 of a floating point type are the numbers of that type nearest to the mathematical constants; zero, one, negative_one, two and one_half are exact.", "quantifier": "all constants, the types float, double and long double", "why_tests_cant": "A test compares a constant with another literal or with a tolerance; that no number of the type is nearer to an irrational number is a statement about all numbers of the type.", "anchors": ["geometrix/numeric/constants.hpp:16-38", "geometrix/numeric/numeric_traits.hpp:94-98"]}
{"id": "C129", "title": "Integer sequences", "statement": "make_integer_sequence<T, N> is integer_sequence<T, 0, 1, ..., N - 1> for every N of the type T, make_index_sequence and index_sequence_for likewise; a negative N does not compile. The number of nested templates grows only with the logarithm of N.", "quantifier": "all integral types and all numbers N", "why_tests_cant": "Each N is a new instance of the templates; tests compile a few of them.", "anchors": ["geometrix/utility/integer_sequence.hpp:17-116"]}
{"id": "C130", "title": "Random indices and elements", "statement": "random_index_generator(n) yields numbers in [0, n), each for equally many numbers of the engine; random_element of a range, with a generator for its size, and random_partition_selector_policy return an iterator to an element of the range; random_integer_generator()(n) yields a number in [0, n); sequence_generator yields consecutive numbers. A copy of a generator can be used after the original is gone, and does not change what the original yields.", "quantifier": "all engines, sizes below 2^32, all numbers of calls", "why_tests_cant": "A wrong index of a range of n elements appears with probability 1/(n+1) and then is read without a check; no test can exclude an index by drawing numbers.", "anchors": ["geometrix/utility/random_generator.hpp:15-110", "geometrix/algorithm/hyperplane_partition_policies.hpp:56-79"]}
{"id": "C131", "title": "Colours", "statement": "hsv2rgb(h, s, v) is the colour with hue h, measured in full turns, saturation s and value v, with components truncated to bytes and alpha 255: each primary colour has the value v within one sixth of a turn of its own hue, and the share s of it falls linearly to zero from there to two sixths. generate_colors(n, s, v) returns n colours with the given saturation and value.", "quantifier": "all hues, saturations and values from 0 to 1", "why_tests_cant": "There are no tests; the six sectors and their borders need a case each, and hues outside one turn are not thought of.", "anchors": ["geometrix/utility/golden_ratio_color_generator.hpp:20-56"]}
{"id": "C132", "title": "Planes in space", "statement": "A plane built from a point and two vectors that are not parallel, or from three points that are not on a line, has a unit normal in the direction of the cross product; a point lies on the plane exactly if its component along the normal is get_distance_to_origin, and the difference of the two is, up to the sign, the distance of the point from the plane. classify_point_to_plane tells on which side of the plane a point is; with an absolute tolerance the points at most the tolerance away count as coplanar. classify_simplex_to_plane says straddling, front, back or coplanar as the vertices do. Parallel vectors fail an assertion.", "quantifier": "all points and vectors, all tolerances, any number of vertices", "why_tests_cant": "There are no tests of the class plane or of the classification; a test would take a few planes along the axes, for which a wrong normal or sign often goes unseen.", "anchors": ["geometrix/primitive/plane.hpp:16-70", "geometrix/algorithm/classify_simplex_to_plane.hpp:17-83"]}
{"id": "C133", "title": "Assignment of an expression to a vector or point", "statement": "v = e and assign(v, e), for a vector or point v and an expression e of the same shape, leave in v the elements that linear algebra gives e, also if v itself occurs in e, and change no other variable; if e has no value the statement ends in an error. A point cannot be assigned to a vector, nor a vector to a point.", "quantifier": "all expressions, of any depth, over variables of any sizes, all values of the variables", "why_tests_cant": "The tests assign expressions that do not mention the left side, or do not look at the result; whether writing the elements one by one disturbs the evaluation depends on where in the expression the left side stands.", "anchors": ["geometrix/tensor/detail/numeric_sequence_n.hpp:135-145", "geometrix/tensor/detail/vector_n.hpp:52-58", "geometrix/tensor/detail/point_n.hpp:50-56", "geometrix/utility/assignment_policy.hpp:73-79", "geometrix/algebra/functions/binary_function.hpp:55-68"]}
{"id": "C134", "title": "Access to the elements of vectors and points by an index", "statement": "get(i), set(i, x) and operator[] of a numeric sequence of n elements access the element i if i is less than n and fail an assertion otherwise; set changes no other element.", "quantifier": "all sequences, all indices of type std::size_t", "why_tests_cant": "Tests use indices within the sequence; the values for which the check is passed by mistake start at 2^31.", "anchors": ["geometrix/tensor/detail/numeric_sequence_n.hpp:98-133"]}
{"id": "C135", "title": "Quantities with a tag", "statement": "An arithmetic expression over numbers and quantities made with GEOMETRIX_STRONG_TYPEDEF has the value that it has without the names. It can be assigned to a quantity of a name exactly if no other name occurs in it and no mathematical function was applied to a part with a name. Quantities of different names cannot be compared, those of one name are compared as numbers. As a system of strong types it keeps products and sums of quantities apart from the quantities.", "quantifier": "all expressions of any depth, all numbers, all names", "why_tests_cant": "What does not compile is not tested at all, and which expressions compile is decided by rules that combine over any depth of the expression.", "anchors": ["geometrix/utility/tagged_quantity.hpp:18-117", "geometrix/utility/tagged_quantity.hpp:161-219", "geometrix/utility/tagged_quantity.hpp:401-431"]}
{"id": "C136", "title": "Comparison policies by type", "statement": "mapped_tolerance_comparison_policy compares two numbers of one type with the policy given for the type, or with the default policy. Numbers of the same unit can be compared, others do not compile. The five relations fit together for all numbers that can be compared, also if their types differ.", "quantifier": "all policies, all maps from types to policies, all pairs of numbers of any types", "why_tests_cant": "The tests compare numbers of one type only; whether equals is symmetric depends on pairs of types with different policies and on values near the tolerance.", "anchors": ["geometrix/numeric/number_comparison_policy.hpp:554-714"]}
{"id": "C137", "title": "Random floating point numbers", "statement": "uniformdoublerand, narrowdoublerand and doublerand return n * 2^k, where n is every integer from -2^53 to 2^53 - 1 equally often and k is 0, from 0 to 7, or from 0 to 511, each equally often and from another result of random(); the float versions the same with 24 bits and exponents up to 7 or 63. No operation is rounded and nothing overflows.", "quantifier": "all results of random()", "why_tests_cant": "There are 2^93 combinations of results; that each significand occurs equally often and that no rounding takes place is a statement about all of them.", "anchors": ["geometrix/algorithm/predicates.hpp:496-622"]}
{"id": "C138", "title": "Functions and limits of fixed point numbers", "statement": "A mathematical function of a fixed point number gives the function of the number, rounded by the rounding policy. std::numeric_limits of a fixed point type has the largest number as max, the smallest positive number as min, the step after 1 as epsilon, and one half as round_error.", "quantifier": "all formats, scales, rounding policies, functions and numbers", "why_tests_cant": "The errors depend on the fraction of the number and on the denominator of the scale; a test has a few numbers of one format.", "anchors": ["geometrix/numeric/fixed_point.hpp:439-463", "geometrix/numeric/fixed_point.hpp:486-577"]}
{"id": "C139", "title": "Arithmetic with numbers of two types", "statement": "The type selected for arithmetic with numbers of two types is the wider one: a floating point type rather than an integer type, and of two of a kind the one with more digits. So pow and atan2 of numbers of different types and the dot product of vectors of different types are not less exact than with the wider type for both. From the types of a sequence a widest one is selected.", "quantifier": "all pairs and sequences of arithmetic types, all numbers of these types, vectors of any dimension", "why_tests_cant": "The tests check numeric_width_compare for four pairs of types and compute with one type; the effect of the selected type depends on the values.", "anchors": ["geometrix/arithmetic/arithmetic_promotion_policy.hpp:50-84", "geometrix/numeric/numeric_traits.hpp:36-73", "geometrix/arithmetic/arithmetic.hpp:164-291", "geometrix/algebra/detail/dot_product.hpp:73-87"]}
{"id": "C140", "title": "Integers in arithmetic", "statement": "arithmetic_promote makes a floating point number with the value of an integer and arithmetic_demote gets it back; promote_div divides with a fraction; demoting drops the fraction and throws if the integer does not fit. widen_cast keeps the value and the product of two widened integers fits the type. signed_cast and unsigned_cast keep the value up to a multiple of the number of values of the type and undo each other.", "quantifier": "all integer types of 8 to 64 bits, all their values, all floating point numbers", "why_tests_cant": "Integers of 64 bits are rounded by the promotion only above 2^53, and the limits of the types are special cases.", "anchors": ["geometrix/arithmetic/arithmetic_promotion_policy.hpp:21-47", "geometrix/arithmetic/arithmetic_promotion_policy.hpp:86-206"]}
{"id": "C141", "title": "Comparison of tuples and pairs", "statement": "lexicographical_compare( a1, b1, a2, b2, ... ) is true if and only if at the first place where the values are not equivalent the first one is less. pair_first_compare and pair_second_compare compare one component. All are strict weak orders if the comparisons of the components are.", "quantifier": "all numbers of values, all comparisons of the values, all values", "why_tests_cant": "A test has tuples of a fixed length; that the order can be used to sort is a statement about all triples of tuples.", "anchors": ["geometrix/utility/utilities.hpp:358-369", "geometrix/utility/utilities.hpp:773-805"]}
{"id": "C142", "title": "Compound assignment of vectors", "statement": "For a vector `v` and an expression `e` with the same number of elements, `v += e` and `v -= e` add the value of `e` to `v`, or subtract it, in every element, whether or not `v` occurs in `e`, and change no other variable; an `e` with another number of elements is rejected when the program is compiled. `(v += a) += b` changes `v` by both. `v *= x` and `v /= x` multiply and divide every element by the number `x`, also if `x` is an element of `v`.", "quantifier": "For all numbers of elements, all expressions and all values of the variables.", "why_tests_cant": "Tests use a few fixed expressions in which the left side does not occur and whose sizes agree; the elements that are written too early, or not at all, show only in other expressions.", "anchors": ["geometrix/tensor/detail/vector_n.hpp:60-95", "geometrix/tensor/detail/numeric_sequence_n.hpp:147-185"]}
{"id": "C143", "title": "Views of matrices and vectors", "statement": "as_column_vector, as_row_vector, as_matrix_minor and as_matrix, nested in any way, show elements of the variables they are made of: get<i,j> gives the element at that place (a minor leaves out its excluded row and column, blocks are laid out in reading order), set<i,j> changes that element and no other, and places outside are rejected. A minor whose excluded row or column does not exist is rejected. The rows and columns of a view show the same elements as the view, and can be read and written with get and set. The product of two views is the product of the matrices they show.", "quantifier": "For all nestings of views, all sizes, all places and all values of the elements.", "why_tests_cant": "A test has a few nestings of a few sizes; that no other element changes, and that no place outside is accepted, are statements about all places.", "anchors": ["geometrix/tensor/vector_matrix_adaptors.hpp:21-315", "geometrix/tensor/matrix_minor_adaptor.hpp:19-154", "geometrix/tensor/matrix_row.hpp:21-82", "geometrix/tensor/matrix_column.hpp:21-80", "geometrix/tensor/detail/as_matrix.hpp:486-610", "geometrix/tensor/detail/as_matrix.hpp:725-803", "geometrix/arithmetic/matrix_arithmetic.hpp:215-237"]}
{"id": "C144", "title": "Points with a reference frame", "statement": "A point tagged with a reference frame keeps its place in space when it is constructed or assigned from a point tagged with another frame, along any sequence of frames. The coordinates at the end do not depend on the frames in between, as far as the place determines them. get_x, get_y and get_z give the Cartesian coordinates of the place, get_r, get_theta and get_phi its polar coordinates, before and after any conversions.", "quantifier": "For all dimensions, all sequences of frames and all points.", "why_tests_cant": "A test converts a few points once; that nothing is lost along sequences of conversions of any length is a statement about all of them.", "anchors": ["geometrix/primitive/point_traits.hpp:170-225", "geometrix/space/reference_frame_transformation.hpp:19-98", "geometrix/space/cartesian_access_traits.hpp:19-108", "geometrix/space/polar_access_traits.hpp:35-122"]}
{"id": "C145", "title": "Fixed point numbers mixed with plain numbers and with other fixed point types", "statement": "Comparing a fixed_point with an integer or a floating point number by <, <=, >, >=, == and !=, on either side, answers what the numbers say. Adding, subtracting, multiplying and dividing a fixed_point and a number, on either side, gives the exact result rounded to the unit of the fixed_point. Converting a fixed_point to another fixed_point type, or assigning it, keeps the number up to the unit of the target.", "quantifier": "all scale policies, formats, rounding policies, raw values and numbers", "why_tests_cant": "The answers are right for the round numbers that tests use; they are wrong only for numbers between two multiples of the unit, outside the range of the format, for run time scales other than the default, and for fractions in conversions, for each combination of policies.", "anchors": ["geometrix/numeric/fixed_point.hpp:59-79", "geometrix/numeric/fixed_point.hpp:129-190", "geometrix/numeric/fixed_point.hpp:210-260", "geometrix/numeric/fixed_point.hpp:318-336", "geometrix/numeric/fixed_point.hpp:373-413", "geometrix/numeric/detail/friend_ordered_field_operators.hpp:19-44", "geometrix/numeric/detail/fixed_point.hpp:69-191"]}
{"id": "C146", "title": "Arrays from the private allocator do not share memory", "statement": "In any history of allocate and deallocate calls on allocators made by GEOMETRIX_PRIVATE_ALLOCATOR, for any element types, every array that allocate(num) returned and that was not given back has num elements of memory of its own; an array can be given back through the allocator of any other type, since allocators always compare equal; a request for more than max_size() elements fails.", "quantifier": "all sequences of calls, element sizes, numbers of elements, and addresses that a correct operator new may return", "why_tests_cant": "Whether arrays overlap depends on the whole history of calls and on the addresses that operator new picks; the wrap-around of the size needs requests of more than 2^64 bytes.", "anchors": ["geometrix/utility/private_allocator.hpp:16-106"]}
{"id": "C147", "title": "Running statistics and scope timers", "statement": "After any numbers are pushed to a running_stat, counts, mean, variance and sum are the count, the arithmetic mean, the sample variance and the sum of exactly these numbers, and clear() returns the object to the state without numbers. Computed with floating point numbers, the mean stays between the least and the greatest number, the variance is never negative and the standard deviation is never a NaN. The report of the scope timers has one line for each name, in ascending order, with the statistics of the durations of exactly the scopes with that name.", "quantifier": "all sequences of numbers, all precisions of the floating point numbers, all sequences of scopes", "why_tests_cant": "The recurrence accumulates rounding errors over sequences of any length; that the variance cannot become negative by rounding is a statement about every sequence, and the state left behind by clear() or an empty object shows up only in particular histories.", "anchors": ["geometrix/utility/scope_timer.hpp", "geometrix/utility/scope_timer.ipp"]}
{"id": "C148", "title": "Functions that answer the same question agree", "statement": "Different functions of the library give consistent answers about the same objects. segment_segment_intersection finds something exactly if segment_segment_distance_sqrd is zero; is_between holds exactly if point_segment_distance_sqrd is zero; a box intersects a point exactly if its distance from the box is zero; the tests of a segment against a polyline or the border of a polygon return true exactly if the distance is zero; a segment hits a disc exactly if the distance of the centre is at most the radius. For a segment and a box, the test of the segment, of the polyline with the two points, of the ray before the end and the clipping agree; a disc meets a box exactly if the distance of the centre from the box is at most the radius; two boxes intersect exactly if their distance is zero, and exactly if they do as oriented boxes; the distance of a point from a box is that from the same oriented box. For a counterclockwise triangle, point_in_triangle agrees with the test for convex polygons, the two segment_triangle_intersect functions agree, and the test of a triangle against a box agrees with that of the polygon with the same vertices. For a point and a polygon, point_in_polygon, polygon_containment, the test for convex polygons, the distance from the border, and the trees (node_bsp_tree_2d, solid_leaf_bsp_tree) made of the sides agree whether the point is inside, outside or on the border.", "quantifier": "all segments, boxes, polylines, discs and points; all polygons, for the tests specific to convex polygons all strictly convex ones; all trees that either selector policy can grow", "why_tests_cant": "Differences between two algorithms for one question show up only for particular positions (touching, collinear, on the border, on the line through a side), which random inputs do not hit; there are infinitely many polygons and trees.", "anchors": ["geometrix/algorithm/intersection/segment_segment_intersection.hpp", "geometrix/algorithm/distance/segment_segment_distance.hpp", "geometrix/algorithm/point_in_polygon.hpp", "geometrix/algorithm/node_bsp_tree_2d.hpp", "geometrix/algorithm/solid_leaf_bsp_tree.hpp"]}
{"id": "C149", "title": "The sides of a simple polygon bound its inside", "statement": "For a simple polygon the points for which point_in_polygon holds are bounded by the sides: no way that avoids the sides leads from inside to outside, and next to every point inside a side one hand is inside and the other outside, the same hand for all sides. The inside is on the left exactly if the polygon turns left at its lowest vertex, and exactly if get_signed_area is positive; it is never zero.", "quantifier": "all polygons with at least three vertices, consecutive ones different, whose sides meet only in common vertices, in particular those with at least four vertices for which is_polygon_simple holds; all points", "why_tests_cant": "The statement is about every point of the plane, arbitrarily short ways across a side, and polygons of any number of vertices and any shape.", "anchors": ["geometrix/algorithm/point_in_polygon.hpp", "geometrix/algorithm/point_sequence/is_polygon_simple.hpp:71-104", "geometrix/primitive/point_sequence_utilities.hpp:100-129"]}
{"id": "C150", "title": "get_area and get_centroid are the area and the centre of the inside", "statement": "For a simple polygon get_area returns the area (Lebesgue measure) of the set of points for which point_in_polygon holds, and it is positive; get_centroid returns the centre of gravity of this set. Hence a polygon inside another one has no greater area. If any polygon is cut along a diagonal, a point is inside it exactly if it is inside one of the two parts but not both, and the signed areas of the parts add up to its signed area.", "quantifier": "all polygons with at least three vertices, consecutive ones different, whose sides meet only in common vertices, in particular those with at least four vertices for which is_polygon_simple holds; for the cut all polygons and all pairs of vertices", "why_tests_cant": "The area of the set of points accepted by a predicate is an integral over the plane, which no finite number of calls determines.", "anchors": ["geometrix/primitive/point_sequence_utilities.hpp:21-148", "geometrix/algorithm/point_in_polygon.hpp:26-84"]}
{"id": "C151", "title": "Moving a polygon does not change the answers about it", "statement": "If a polygon and a point are moved together with rotate_points, rotate_point and rotate_translate_points, or by any invertible affine map, point_in_polygon, polygon_containment and is_polygon_simple give the same answers as before, and the distance of the point from the border stays the same under rotations; get_signed_area is multiplied by the determinant of the map (for rotations unchanged), and get_centroid moves along.", "quantifier": "all polygons, also those that intersect themselves; all points; all pairs of unit vectors, all invertible affine maps", "why_tests_cant": "point_in_polygon counts crossings with a ray to the right, so a rotation changes which sides are counted and how vertices at the height of the point are treated; that the parity agrees for every polygon and every angle is a statement about all of them.", "anchors": ["geometrix/algorithm/point_in_polygon.hpp", "geometrix/algorithm/rotation.hpp", "geometrix/algorithm/point_sequence/is_polygon_simple.hpp", "geometrix/primitive/point_sequence_utilities.hpp"]}
{"id": "C152", "title": "Moving segments and polylines moves the answers about them", "statement": "If all arguments are mapped by one invertible affine map, segment_segment_intersection and line_line_intersect report the same kind of intersection and the mapped points in the same order, with the same parameters. If all arguments are rotated with rotate_point or rotate_points, get_orientation, the distances between points, segments, polylines and polygons stay the same, and the closest points, with their parameters and edge indices, rotate along, polyline_length, point_polyline_orientation and is_point_concave stay the same, and ramer_douglas_peucker_algorithm keeps the same vertices. clean_polyline and clean_polygon can be exchanged with every invertible affine map.", "quantifier": "all points, segments, polylines and polygons, for intersections all segments that are not points; all invertible affine maps; all pairs of unit vectors", "why_tests_cant": "The code compares coordinates in some branches (is_between looks at x unless the segment is vertical) and breaks ties between equally near points by order; that the choice agrees for every angle, including the ties, is a statement about all of them.", "anchors": ["geometrix/algorithm/intersection/segment_segment_intersection.hpp", "geometrix/algorithm/line_intersection.hpp", "geometrix/algorithm/distance/segment_segment_closest_point.hpp", "geometrix/algorithm/distance/point_polygon_closest_point.hpp", "geometrix/algorithm/rotation.hpp", "geometrix/algorithm/point_sequence/remove_collinear_points.hpp", "geometrix/algorithm/point_sequence/ramer_douglas_peucker_algorithm.hpp"]}
{"id": "C153", "title": "The answers about a polygon do not depend on its start vertex and direction", "statement": "If the vertices of a polygon are listed from another start vertex, or in the opposite direction, then point_in_polygon, polygon_containment, get_area, get_centroid, is_polygon_simple, is_polygon_simple_memoized, point_polygon_distance_sqrd, segment_polygon_distance_sqrd and polygon_polygon_distance_sqrd return the same as before.", "quantifier": "all polygons, all start vertices, both directions, all points and segments; for is_polygon_simple all polygons without edges of length zero", "why_tests_cant": "There are as many start vertices as vertices, and the code treats the closing edge separately; one that is forgotten shows only if it is the decisive one.", "anchors": ["geometrix/algorithm/point_in_polygon.hpp", "geometrix/primitive/point_sequence_utilities.hpp", "geometrix/algorithm/point_sequence/is_polygon_simple.hpp", "geometrix/algorithm/distance/polygon_polygon_distance.hpp"]}
{"id": "C154", "title": "The distance functions are distances", "statement": "point_point_distance is a metric: never negative, zero exactly for equal points, symmetric, and subject to the triangle inequality. Each of point_segment_distance, point_polyline_distance, point_polygon_distance, point_aabb_distance, point_obb_distance, aabb_aabb_distance, segment_segment_distance, segment_polyline_distance, segment_polygon_distance, polyline_polyline_distance and polygon_polygon_distance returns the least length between a point of its first and a point of its second argument. The functions of a point and a shape are zero exactly on the shape, and change by at most the distance by which the point is moved. The functions of two shapes are zero exactly if the shapes have a common point, and those of two shapes of the same kind do not depend on their order.", "quantifier": "For all points, segments, polylines with at least two points, polygons with at least one vertex, boxes with ordered bounds, and oriented boxes with orthonormal axes, in exact real arithmetic.", "why_tests_cant": "A minimum over infinitely many points, a triangle inequality over all triples of points and a Lipschitz bound over all pairs of points are statements about a continuum; a test compares a few computed values.", "anchors": ["geometrix/algorithm/distance/point_point_distance.hpp", "geometrix/algorithm/distance/point_segment_distance.hpp:64-69", "geometrix/algorithm/distance/point_polyline_distance.hpp:52-57", "geometrix/algorithm/distance/point_polygon_distance.hpp:52-57", "geometrix/algorithm/distance/segment_segment_distance.hpp:70-107", "geometrix/algorithm/distance/segment_polyline_distance.hpp:78-90", "geometrix/algorithm/distance/segment_polygon_distance.hpp:78-90", "geometrix/algorithm/distance/polyline_polyline_distance.hpp:163-168", "geometrix/algorithm/distance/polygon_polygon_distance.hpp:166-171", "geometrix/algorithm/distance/point_aabb_distance.hpp:138-145", "geometrix/algorithm/distance/aabb_aabb_distance.hpp:113-118", "geometrix/algorithm/distance/point_obb_distance.hpp:73-78"]}
{"id": "C155", "title": "An additional vertex on a side changes nothing", "statement": "If a point of a side of a polygon, possibly the closing side, is inserted as a vertex between the ends of that side, then point_in_polygon, get_area, get_centroid, polygon_length, point_polygon_distance_sqrd, segment_polygon_distance_sqrd, polygon_polygon_distance_sqrd and the test of the polygon against a box return the same as before, for every point, segment and box. The same holds for polylines and polyline_length, point_polyline_distance_sqrd, segment_polyline_distance_sqrd, polyline_polyline_distance_sqrd and the test against a box.", "quantifier": "all polygons and polylines with at least two points, all points of all sides including their ends, all query points, segments and boxes; exact arithmetic", "why_tests_cant": "Redundant vertices change which branch of the half open crossing rule applies and which algorithm is selected by size; the statement is about every position of the vertex and every query point, including those at its height.", "anchors": ["geometrix/algorithm/point_in_polygon.hpp", "geometrix/primitive/point_sequence_utilities.hpp", "geometrix/algorithm/distance/point_polygon_distance.hpp", "geometrix/algorithm/distance/segment_polygon_distance.hpp", "geometrix/algorithm/distance/polyline_polyline_distance.hpp", "geometrix/algorithm/distance/polygon_polygon_distance.hpp"]}

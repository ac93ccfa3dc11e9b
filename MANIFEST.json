{"claims": [
 {"property": "C01", "status": "proved", "theorems": ["Geometrix.C01_direct_coherent", "Geometrix.C01_absolute_coherent", "Geometrix.C01_relative_coherent", "Geometrix.C01_fraction_coherent", "Geometrix.C01_absolute_negative_tolerance"], "note": "all four policies; negative tolerance shown to break coherence"},
 {"property": "C02", "status": "partial", "theorems": ["Geometrix.C02_direct_strictWeakOrder", "Geometrix.C02_absolute_refuted", "Geometrix.C02_relative_refuted", "Geometrix.C02_absolute_partial"], "note": "true for the direct policy; the code violates it for absolute and relative tolerances (refuted); partial: irreflexive and transitive for absolute tolerance"},
 {"property": "C03", "status": "proved", "theorems": ["Geometrix.C03_lex_iff", "Geometrix.C03_reverse_lex_iff", "Geometrix.C03_lex_strictWeakOrder", "Geometrix.C03_lex_total", "Geometrix.C03_reverse_lex_strictWeakOrder", "Geometrix.C03_reverse_lex_total", "Geometrix.C03_dimension_compare", "Geometrix.C03_coordinate_less_compare_refuted"], "note": "also coordinate_less_compare shown to order the other way round"},
 {"property": "C04", "status": "partial", "theorems": ["Geometrix.C04_compares_starts", "Geometrix.C04_strictWeakOrder_partial", "Geometrix.C04_equivalence_refuted", "Geometrix.C04_direction_refuted", "Geometrix.C04_interval_compare_iff"], "note": "strict weak ordering holds, but equivalence is equality of start points only (refuted)"},
 {"property": "C05", "status": "proved", "theorems": ["Geometrix.C05_sign_of_area", "Geometrix.C05_cyclic", "Geometrix.C05_translate", "Geometrix.C05_scale", "Geometrix.C05_swap", "Geometrix.C05_coincident"], "note": ""},
 {"property": "C06", "status": "proved", "theorems": ["Geometrix.C06_isBetween_closed", "Geometrix.C06_isBetween_open", "Geometrix.C06_collinear_point_between", "Geometrix.C06_degenerate_refuted"], "note": "for non degenerate segments, as stated; the degenerate case is refuted"},
 {"property": "C07", "status": "proved", "theorems": ["Geometrix.C07_is_vector_between"], "note": "over the reals"},
 {"property": "C08", "status": "proved", "theorems": ["Geometrix.C08_vector_angle_compare", "Geometrix.C08_point_angle_compare", "Geometrix.C08_angle_exists", "Geometrix.C08_vector_strictWeakOrder", "Geometrix.C08_vector_equivalence", "Geometrix.C08_pseudo_angle"], "note": "over the reals"},
 {"property": "C09", "status": "proved", "theorems": ["Geometrix.C09_segment_segment", "Geometrix.C09_symmetric", "Geometrix.C09_touching_collinear_refuted", "Geometrix.C09_degenerate_refuted"], "note": "classification and points, for non degenerate segments; touching collinear segments are reported as overlapping, degenerate segments are refuted"},
 {"property": "C10", "status": "proved", "theorems": ["Geometrix.C10_line_line_crossing", "Geometrix.C10_line_line_parallel", "Geometrix.C10_line_segment"], "note": ""},
 {"property": "C11", "status": "partial", "theorems": ["Geometrix.C11_ray_segment", "Geometrix.C11_overloads_agree_partial", "Geometrix.C11_overloads_disagree_refuted", "Geometrix.C11_ray_line_parallel_refuted", "Geometrix.C11_ray_line_half_refuted", "Geometrix.C11_ray_line_partial"], "note": "the overload with outputs is right for unit directions; the overload without outputs and ray_line_intersection are refuted outside the conditions of the partial theorems"},
 {"property": "C12", "status": "partial", "theorems": ["Geometrix.C12_segment_exact", "Geometrix.C12_segment_partial", "Geometrix.C12_segment_epsilon_refuted", "Geometrix.C12_segment_exact_space", "Geometrix.C12_segment_space_partial", "Geometrix.C12_ray", "Geometrix.C12_ray_entry_exit", "Geometrix.C12_ray_null_refuted"], "note": "ray tests proved; the segment tests are exact without the added machine epsilon and never miss with it; false positives with it are exhibited for every positive epsilon"},
 {"property": "C13", "status": "proved", "theorems": ["Geometrix.C13_circle_circle", "Geometrix.C13_states"], "note": "for circles with radii that are not negative"},
 {"property": "C14", "status": "proved", "theorems": ["Geometrix.C14_point", "Geometrix.C14_boxes", "Geometrix.C14_contains", "Geometrix.C14_expand", "Geometrix.C14_bounds", "Geometrix.C14_segment_bounds", "Geometrix.C14_bounding_box_intersection", "Geometrix.C14_corner", "Geometrix.C14_sphere", "Geometrix.C14_sphere_point"], "note": ""},
 {"property": "C15", "status": "proved", "theorems": ["Geometrix.C15_intersection"], "note": "for boxes with orthonormal axes, as the class requires"},
 {"property": "C16", "status": "proved", "theorems": ["Geometrix.C16_clip", "Geometrix.C16_direction", "Geometrix.C16_inside", "Geometrix.C16_idempotent", "Geometrix.C16_invalid_window"], "note": "for a window whose low corner is not above its high corner"},
 {"property": "C17", "status": "partial", "theorems": ["Geometrix.C17_segment", "Geometrix.C17_two_points_partial", "Geometrix.C17_two_points_refuted", "Geometrix.C17_param_partial", "Geometrix.C17_distance", "Geometrix.C17_distance_zero"], "note": "segment overload and distance proved for all segments; the two-point overloads divide by zero for equal points (refuted)"},
 {"property": "C18", "status": "proved", "theorems": ["Geometrix.C18_closest", "Geometrix.C18_distance", "Geometrix.C18_symmetric", "Geometrix.C18_zero"], "note": ""},
 {"property": "C19", "status": "proved", "theorems": ["Geometrix.C19_plane", "Geometrix.C19_space"], "note": "dimensions 2 and 3"},
 {"property": "C20", "status": "proved", "theorems": ["Geometrix.C20_minimum", "Geometrix.C20_symmetric", "Geometrix.C20_zero"], "note": ""},
 {"property": "C21", "status": "partial", "theorems": ["Geometrix.C21_polyline_distance", "Geometrix.C21_polyline_short", "Geometrix.C21_polygon_distance", "Geometrix.C21_polyline_closest_partial", "Geometrix.C21_polygon_closest_partial", "Geometrix.C21_polygons_closest_partial", "Geometrix.C21_closest_degenerate_refuted"], "note": "distances proved; closest point functions proved unless the first examined edge is degenerate, where they divide by zero (refuted)"},
 {"property": "C22", "status": "proved", "theorems": ["Geometrix.C22_distance", "Geometrix.C22_equals_brute"], "note": "for every priority queue"},
 {"property": "C23", "status": "partial", "theorems": ["Geometrix.C23_small_partial", "Geometrix.C23_large_partial", "Geometrix.C23_closing_edge_refuted"], "note": "proved if one polygon has fewer than six vertices; otherwise the closing edges are ignored (refuted)"},
 {"property": "C24", "status": "partial", "theorems": ["Geometrix.C24_point", "Geometrix.C24_segment_partial", "Geometrix.C24_segment_edge_refuted", "Geometrix.C24_segment_inside_refuted", "Geometrix.C24_corner"], "note": "point distance and closest point proved; the segment distance omits the edge from corner 3 to corner 0 and the inside (refuted)"},
 {"property": "C25", "status": "proved", "theorems": ["Geometrix.C25_shoelace", "Geometrix.C25_empty", "Geometrix.C25_fan", "Geometrix.C25_triangle", "Geometrix.C25_translate", "Geometrix.C25_rotate", "Geometrix.C25_reverse", "Geometrix.C25_scale", "Geometrix.C25_area", "Geometrix.C25_centroid_translate", "Geometrix.C25_centroid_rotate", "Geometrix.C25_centroid_total", "Geometrix.C25_centroid_triangle", "Geometrix.C25_polyline_length", "Geometrix.C25_polyline_length_reverse", "Geometrix.C25_polygon_length", "Geometrix.C25_polygon_length_single", "Geometrix.C25_polygon_length_laws"], "note": "area, centroid and perimeter laws"},
 {"property": "C26", "status": "proved", "theorems": ["Geometrix.C26_polylines", "Geometrix.C26_polylines_complete", "Geometrix.C26_polygons", "Geometrix.C26_polygons_single", "Geometrix.C26_repeated_points"], "note": "polylines and polygons without repeated consecutive points; with repeated points the test is too weak (C26_repeated_points)"},
 {"property": "C27", "status": "partial", "theorems": ["Geometrix.C27_polyline_subsequence", "Geometrix.C27_polyline_partial", "Geometrix.C27_polyline_refuted", "Geometrix.C27_coalesce_polyline", "Geometrix.C27_clean_polyline_partial", "Geometrix.C27_clean_refuted", "Geometrix.C27_polygon_subsequence", "Geometrix.C27_polygon_curve", "Geometrix.C27_polygon_corners_partial", "Geometrix.C27_clean_polygon_partial", "Geometrix.C27_polygon_first_refuted", "Geometrix.C27_polygon_last_refuted", "Geometrix.C27_coalesce_polygon_refuted"], "note": "proved for polylines and polygons that do not turn back on themselves; spikes, the first polygon vertex and the end of a polygon violate it (refuted)"},
 {"property": "C28", "status": "partial", "theorems": ["Geometrix.C28_split_partial", "Geometrix.C28_split_end", "Geometrix.C28_split_end_refuted", "Geometrix.C28_split_short", "Geometrix.C28_point_at_partial", "Geometrix.C28_point_at_end_refuted"], "note": "proved for positions below the total length; at the total length the last edge is lost (refuted)"},
 {"property": "C29", "status": "partial", "theorems": ["Geometrix.C29_subsequence", "Geometrix.C29_terminates", "Geometrix.C29_unchecked", "Geometrix.C29_epsilon_partial", "Geometrix.C29_chord_partial", "Geometrix.C29_epsilon_refuted", "Geometrix.C29_assert_refuted"], "note": "subsequence, end points and termination proved; the epsilon bound and the range assertion fail (refuted). For every polyline it is proved which bound the removed vertices have: with respect to the line to the vertex before the next kept one, the last removed vertex of a gap excepted (C29_chord_partial); the bound of the property only when all inner vertices are removed (C29_epsilon_partial)"},
 {"property": "C30", "status": "proved", "theorems": ["Geometrix.C30_first_to_second", "Geometrix.C30_isometry", "Geometrix.C30_vector", "Geometrix.C30_sequences", "Geometrix.C30_inverse"], "note": ""},
 {"property": "C31", "status": "proved", "theorems": ["Geometrix.C31_split_segment", "Geometrix.C31_zero_size"], "note": "over any Archimedean ordered field, for every size that is not zero"},
 {"property": "C32", "status": "partial", "theorems": ["Geometrix.C32_complete_partial", "Geometrix.C32_disjoint", "Geometrix.C32_outside_refuted", "Geometrix.C32_single_refuted", "Geometrix.C32_empty"], "note": "every point in range is visited exactly as often as it is stored, for every nth_element; points outside the range may be visited too (refuted)"},
 {"property": "C33", "status": "partial", "theorems": ["Geometrix.C33_construct", "Geometrix.C33_valid_partial", "Geometrix.C33_valid_refuted", "Geometrix.C33_outside", "Geometrix.C33_is_contained", "Geometrix.C33_same_cell", "Geometrix.C33_cell_shape", "Geometrix.C33_corners_bound", "Geometrix.C33_centroid_partial", "Geometrix.C33_centroid_refuted", "Geometrix.C33_scaled"], "note": "proved except for two edge cases that violate it (refuted): a grid of 2^32-1 cell widths has width zero, and the centre of a last cell may be outside the bounds"},
 {"property": "C34", "status": "proved", "theorems": ["Geometrix.C34_hash_grid", "Geometrix.C34_never_created", "Geometrix.C34_new_grid", "Geometrix.C34_grid_store", "Geometrix.C34_grid_range", "Geometrix.C34_by_point", "Geometrix.C34_by_point_outside"], "note": "for every sequence of operations; the std::unordered_map is an association list"},
 {"property": "C35", "status": "proved", "theorems": ["Geometrix.C35_cells", "Geometrix.C35_segment"], "note": "int is unbounded in the model"},
 {"property": "C36", "status": "partial", "theorems": ["Geometrix.C36_inside_partial", "Geometrix.C36_end_refuted", "Geometrix.C36_clipped_partial", "Geometrix.C36_stoppable"], "note": "For all segments, inside the grid or clipped to it, the traversal ends, starts in the first cell, moves across edges, visits only cells that meet the segment and reaches the last cell, except for the refuted case: a segment that goes right and down and ends at a corner of cells stops one cell short. Grids of less than 2^32-1 cell widths, as in C33."},
 {"property": "C37", "status": "partial", "theorems": ["Geometrix.C37_fill_partial", "Geometrix.C37_not_started", "Geometrix.C37_next_color", "Geometrix.C37_revisit_refuted", "Geometrix.C37_wrap_refuted"], "note": "Complete for a helper that has not visited the cells before and whose next colour is not the colour of the seed. Refuted: a second traversal with the same helper does not visit again (m_visited), and after the colour counter wraps the traversal need not end."},
 {"property": "C38", "status": "partial", "theorems": ["Geometrix.C38_convex", "Geometrix.C38_ray", "Geometrix.C38_rotate", "Geometrix.C38_reverse", "Geometrix.C38_crossing", "Geometrix.C38_flip", "Geometrix.C38_outside", "Geometrix.C38_classify_partial", "Geometrix.C38_classify", "Geometrix.C38_doubled_refuted", "Geometrix.C38_short"], "note": "The even-odd test is complete. The classifying version is complete for the points that are on at most one side (C38_classify); refuted for a point on an even number of sides, as in a polygon that goes back along a side."},
 {"property": "C39", "status": "partial", "theorems": ["Geometrix.C39_roundtrip", "Geometrix.C39_from_int_sound", "Geometrix.C39_narrow_argument_refuted", "Geometrix.C39_add_sub", "Geometrix.C39_inc_dec", "Geometrix.C39_mul", "Geometrix.C39_mul_wide", "Geometrix.C39_div", "Geometrix.C39_div_zero", "Geometrix.C39_mul_rounding_refuted", "Geometrix.C39_fmod", "Geometrix.C39_compare", "Geometrix.C39_compare_int", "Geometrix.C39_run_time_compare_refuted", "Geometrix.C39_abs", "Geometrix.C39_rounding", "Geometrix.C39_from_real", "Geometrix.C39_to_real_refuted", "Geometrix.C39_to_real_partial", "Geometrix.C39_to_real_run_time_refuted"], "note": "Conversions from integers, addition, subtraction, multiplication, division, remainder, comparison and rounding are complete with the bounds of the integer types. Refuted: a narrow integer argument throws although its number fits; products are not rounded by the rounding policy; conversion to floating point loses the fraction, and with the binary run time scale divides by the exponent; numbers with different run time scales compare wrongly."},
 {"property": "C40", "status": "partial", "theorems": ["Geometrix.C40_makers", "Geometrix.C40_is_empty", "Geometrix.C40_expand", "Geometrix.C40_expand_cmp_partial", "Geometrix.C40_expand_cmp_refuted", "Geometrix.C40_expand_cmp_empty_refuted", "Geometrix.C40_infinite", "Geometrix.C40_infinite_cmp_refuted", "Geometrix.C40_expand_bounds_refuted", "Geometrix.C40_intersects_partial", "Geometrix.C40_intersects_cmp", "Geometrix.C40_touching_refuted", "Geometrix.C40_empty_refuted", "Geometrix.C40_translate", "Geometrix.C40_scale_partial", "Geometrix.C40_negative_scale_refuted", "Geometrix.C40_storage_sum", "Geometrix.C40_storage_difference_refuted", "Geometrix.C40_div_zero"], "note": "Expansion of closed intervals, emptiness, translation and the sum of storages proved. Refuted: expansion of half open intervals, expansion of an empty interval with a policy, intersection of touching closed or of empty intervals, scaling by a negative number, difference of storages. The order operations are proved for any ordered type, infinite ends included; the interval made with infinite ends stays empty when expanded with a policy (refuted). Arithmetic with infinite ends not modelled."},
 {"property": "C41", "status": "partial", "theorems": ["Geometrix.C41_hull_partial", "Geometrix.C41_last_ray_partial", "Geometrix.C41_last_ray_refuted", "Geometrix.C41_vertices", "Geometrix.C41_terminates", "Geometrix.C41_short", "Geometrix.C41_clockwise_refuted", "Geometrix.C41_front", "Geometrix.C41_lowest_refuted", "Geometrix.C41_collinear_refuted"], "note": "Hull proved when the lowest point is first and the first and the last ray from it hold one point each, with any number of points on the rays between; with several points on the last ray the list may have one more entry, inside of the last side (C41_last_ray_partial). The list is clockwise, not counterclockwise. Refuted: find_lowest does not bring the lowest point to the front (C41_front states which point it brings there), two points on the first ray break the assertion, a point inside of the last side may stay in the list."},
 {"property": "C42", "status": "partial", "theorems": ["Geometrix.C42_factors", "Geometrix.C42_solve", "Geometrix.C42_singular", "Geometrix.C42_loop_factors", "Geometrix.C42_loop_singular_refuted"], "note": "Proved for the unrolled decomposition, the default: factors, solution, and an exception exactly for singular matrices. The run time variant does not check the last pivot (refuted)."},
 {"property": "C43", "status": "proved", "theorems": ["Geometrix.C43_leibniz", "Geometrix.C43_multiplicative", "Geometrix.C43_singular", "Geometrix.C43_swap"], "note": "Every size; the code generates the sizes 1 to 10 by macro. Equal to the sum over permutations, multiplicative, zero exactly for singular matrices, sign change under row exchange."},
 {"property": "C44", "status": "partial", "theorems": ["Geometrix.C44_normalize", "Geometrix.C44_normalize3", "Geometrix.C44_normals", "Geometrix.C44_bisect_partial", "Geometrix.C44_bisect_not_antiparallel_partial", "Geometrix.C44_bisect_diagonal_partial", "Geometrix.C44_bisect_length_refuted", "Geometrix.C44_bisect_parallel_refuted", "Geometrix.C44_area3_partial", "Geometrix.C44_area3_refuted", "Geometrix.C44_cross3", "Geometrix.C44_area2", "Geometrix.C44_volume"], "note": "normalize, the normals, the cross product and the volume are proved. bisect halves the angle only for vectors of the same length in different directions (C44_bisect_partial); it is refuted for different lengths and for parallel vectors. exterior_product_area in space is the sum of the components of the cross product, refuted as an area."},
 {"property": "C45", "status": "partial", "theorems": ["Geometrix.C45_segment_polyline", "Geometrix.C45_polyline_polyline_partial", "Geometrix.C45_polyline_polyline_refuted"], "note": "segment_polyline_intersect is proved for every visitor with state. polyline_polyline_intersect stops after the first edge of the first polyline that meets the second: refuted by a count, the partial theorem says exactly which calls are made and that the returned value is right. Edges of length zero are excluded."},
 {"property": "C46", "status": "proved", "theorems": ["Geometrix.C46_transparent", "Geometrix.C46_once", "Geometrix.C46_key_refuted"], "note": "Any strict weak order of the keys and any starting cache with correct entries. The function must agree on arguments with the same key (C46_key_refuted shows that this is needed when the key type identifies arguments). Recursive use of the same cache is not modelled."},
 {"property": "C47", "status": "partial", "theorems": ["Geometrix.C47_simple_partial", "Geometrix.C47_memoized_agrees", "Geometrix.C47_short", "Geometrix.C47_triangle_partial", "Geometrix.C47_triangle_refuted", "Geometrix.C47_triangle", "Geometrix.C47_with_holes_partial"], "note": "Proved for polygons of at least four vertices without zero edges, and for non-degenerate triangles; degenerate triangles are refuted (always called simple). Memoized and plain versions agree. Polygons with holes: proved for rings of at least four vertices."},
 {"property": "C48", "status": "proved", "theorems": ["Geometrix.C48_0_2pi", "Geometrix.C48_0_2pi_ends", "Geometrix.C48_minus_pi_to_pi"], "note": "Over the reals with the exact value of pi. A full turn stays a full turn in [0, 2pi] (C48_0_2pi_ends); the other function gives a value in (-pi, pi], the same for all angles that differ by whole turns."},
 {"property": "C49", "status": "partial", "theorems": ["Geometrix.C49_union", "Geometrix.C49_difference_partial", "Geometrix.C49_difference_point", "Geometrix.C49_difference_refuted", "Geometrix.C49_union_point_refuted"], "note": "For every std::set of separate collinear segments. The union is proved. The difference covers all points outside the subtracted segment and none inside it; ends of the subtracted segment that do not end a remaining part are lost (C49_difference_refuted). The union with a segment of length zero is refuted (C49_union_point_refuted)."},
 {"property": "C50", "status": "proved", "theorems": ["Geometrix.C50_nonneg", "Geometrix.C50_additive", "Geometrix.C50_reverse", "Geometrix.C50_at_least_distance", "Geometrix.C50_segment", "Geometrix.C50_mid_point"], "note": "Plane polylines over the reals. The mid point needs positive length (see C56_mid_point_faults for the rest)."},
 {"property": "C52", "status": "partial", "theorems": ["Geometrix.C52_distance_partial", "Geometrix.C52_dimension_five_refuted"], "note": "proved for one to four dimensions, refuted for five"},
 {"property": "C53", "status": "proved", "theorems": ["Geometrix.C53_polyline_closest", "Geometrix.C53_polygon_closest", "Geometrix.C53_distance"], "note": ""},
 {"property": "C54", "status": "partial", "theorems": ["Geometrix.C54_small", "Geometrix.C54_large_partial", "Geometrix.C54_outputs_refuted", "Geometrix.C54_polygon_partial", "Geometrix.C54_polygon_refuted"], "note": "proved if one input has fewer than six points; otherwise the outputs are not written when the first points are closest, and closing edges of polygons are ignored (both refuted)"},
 {"property": "C55", "status": "partial", "theorems": ["Geometrix.C55_identify_adjacent", "Geometrix.C55_identify_collinear_partial", "Geometrix.C55_identify_collinear_refuted"], "note": "adjacent points proved; identify_collinear_points_polygon reports the wrong positions (refuted)"},
 {"property": "C56", "status": "proved", "theorems": ["Geometrix.C56_mid_point", "Geometrix.C56_mid_point_faults"], "note": "polylines of positive length"},
 {"property": "C57", "status": "partial", "theorems": ["Geometrix.C57_characteristics", "Geometrix.C57_characteristics_off", "Geometrix.C57_repeated_points_refuted"], "note": "proved for polylines without repeated consecutive points; refuted with them"},
 {"property": "C58", "status": "proved", "theorems": ["Geometrix.C58_point_line_distance", "Geometrix.C58_signed", "Geometrix.C58_degenerate"], "note": ""},
 {"property": "C59", "status": "proved", "theorems": ["Geometrix.C59_columns"], "note": "The polygon overload; the overload for polygons with holes is not modelled."},
 {"property": "C60", "status": "partial", "theorems": ["Geometrix.C60_convex", "Geometrix.C60_quadrilateral", "Geometrix.C60_triangle", "Geometrix.C60_clockwise_refuted", "Geometrix.C60_triangle_space_partial", "Geometrix.C60_line_refuted", "Geometrix.C60_plane_refuted", "Geometrix.C60_preconditions", "Geometrix.C60_parity"], "note": "Complete for strictly convex counterclockwise polygons, quadrilaterals and plane triangles. The test in space holds for points of the plane of the triangle off the line BC; refuted on that line and off the plane."},
 {"property": "C61", "status": "proved", "theorems": ["Geometrix.C61_product", "Geometrix.C61_adjugate", "Geometrix.C61_inverse"], "note": "matrix_product_element, adjugate_at_index and inverse_at_index for every size of at least 2; the inverse of a singular matrix throws in every element."},
 {"property": "C51", "status": "partial", "theorems": ["Geometrix.C51_crossing_partial", "Geometrix.C51_collinear_partial", "Geometrix.C51_shared_end_partial", "Geometrix.C51_touching_partial", "Geometrix.C51_touching_refuted", "Geometrix.C51_shared_end_refuted"], "note": "Right when neither end of the first segment is on the line of the second, and for collinear segments without a common end. An end of the first segment inside the second is reported as no crossing (C51_touching_refuted); overlapping segments with a common end are reported as endpoint (C51_shared_end_refuted)."},
 {"property": "C62", "status": "proved", "theorems": ["Geometrix.C62_cyclic", "Geometrix.C62_concave_iff", "Geometrix.C62_out_of_range", "Geometrix.C62_convex"], "note": "Every polygon; an index outside the polygon reads out of range."},
 {"property": "C63", "status": "proved", "theorems": ["Geometrix.C63_ray", "Geometrix.C63_ray_space", "Geometrix.C63_segment", "Geometrix.C63_segment_point", "Geometrix.C63_roots", "Geometrix.C63_roots_point", "Geometrix.C63_polyline"], "note": "Exact arithmetic over the reals, direct policy; unit direction for rays; segments of positive length. For a segment of length zero the point q is not written (C63_segment_point) and the version with two parameters divides by zero (C63_roots_point)."},
 {"property": "C64", "status": "partial", "theorems": ["Geometrix.C64_apart_partial", "Geometrix.C64_overlap_partial", "Geometrix.C64_receding_partial", "Geometrix.C64_touching_refuted", "Geometrix.C64_overlap_refuted", "Geometrix.C64_points_refuted"], "note": "Right when the discs are apart at the start, or touch and approach each other. Touching discs that do not approach are missed (C64_touching_refuted), q is not written for discs that overlap at the start (C64_overlap_refuted), two points fail an assertion (C64_points_refuted)."},
 {"property": "C65", "status": "proved", "theorems": ["Geometrix.C65_line"], "note": "Plane version, direct policy, exact arithmetic."},
 {"property": "C66", "status": "partial", "theorems": ["Geometrix.C66_segment_partial", "Geometrix.C66_touching_refuted", "Geometrix.C66_overlap_refuted", "Geometrix.C66_point_refuted"], "note": "Right for positive radius unless the disc touches an end of the segment at the start without approaching it. A touching disc that moves along the tangent is missed (C66_touching_refuted), q may be off the segment for discs that overlap an end at the start (C66_overlap_refuted), radius zero fails an assertion (C66_point_refuted)."},
 {"property": "C67", "status": "partial", "theorems": ["Geometrix.C67_box_partial", "Geometrix.C67_apart_refuted", "Geometrix.C67_overlap_refuted"], "note": "Right when the centre starts outside the box expanded by the radius, for boxes with interior and positive radius. If it starts inside, the region is taken from the point at which the ray leaves the expanded box: discs that are apart may be reported at time zero (C67_apart_refuted) and discs that overlap the box may be missed at time zero (C67_overlap_refuted)."},
 {"property": "C68", "status": "partial", "theorems": ["Geometrix.C68_capsule_partial", "Geometrix.C68_parallel_refuted", "Geometrix.C68_inside_refuted"], "note": "Right for segments that are not parallel to the axis and start outside. Parallel segments divide by zero, as the test abs(a) < 0 never holds with exact comparison (C68_parallel_refuted); a segment that starts inside and leaves is reported as a miss (C68_inside_refuted)."},
 {"property": "C69", "status": "proved", "theorems": ["Geometrix.C69_line", "Geometrix.C69_plane", "Geometrix.C69_parallel"], "note": "Plane and space, any ordered field. That the segment is not parallel is a precondition; otherwise the quotient divides by zero (C69_parallel)."},
 {"property": "C70", "status": "proved", "theorems": ["Geometrix.C70_obb"], "note": "Any ordered field."},
 {"property": "C71", "status": "proved", "theorems": ["Geometrix.C71_front", "Geometrix.C71_back", "Geometrix.C71_ends", "Geometrix.C71_long", "Geometrix.C71_all", "Geometrix.C71_ends_long"], "note": "Plane polylines over the reals with exact square root and comparison, lengths at least zero. If the length is that of the polyline, a part of length zero may be left (C71_all)."},
 {"property": "C72", "status": "proved", "theorems": ["Geometrix.C72_circle", "Geometrix.C72_signed", "Geometrix.C72_fold", "Geometrix.C72_over_index", "Geometrix.C72_total", "Geometrix.C72_total_absolute"], "note": "Plane polylines over the reals. NoFolds (three consecutive vertices distinct) is a precondition; otherwise there is a division by zero (C72_fold)."},
 {"property": "C73", "status": "proved", "theorems": ["Geometrix.C73_inflection", "Geometrix.C73_split", "Geometrix.C73_total", "Geometrix.C73_short"], "note": "Plane polylines over the reals, under NoFolds. The empty polyline is read beyond its end (C73_short)."},
 {"property": "C74", "status": "partial", "theorems": ["Geometrix.C74_visits_partial", "Geometrix.C74_simple_partial", "Geometrix.C74_exact", "Geometrix.C74_straight_refuted"], "note": "A polyline that goes straight on at a vertex is reported as intersecting itself, because collinear segments that touch count as overlapping (C74_straight_refuted). Without straight vertices the property holds (C74_visits_partial, C74_simple_partial); C74_exact says what is reported in general. Edges of length zero are excluded."},
 {"property": "C75", "status": "proved", "theorems": ["Geometrix.C75_segment", "Geometrix.C75_polyline", "Geometrix.C75_polygon", "Geometrix.C75_short"], "note": "Exact arithmetic, direct comparison. The containing polygon is simple, so that the parity rule is what the code computes for its points. For two polygons the claim is about the border of the first one; that then its interior is contained as well is a fact about plane polygons that is not proved here."},
 {"property": "C76", "status": "proved", "theorems": ["Geometrix.C76_containing", "Geometrix.C76_closest", "Geometrix.C76_containing_or_closest", "Geometrix.C76_single", "Geometrix.C76_half", "Geometrix.C76_subsequence", "Geometrix.C76_nothing", "Geometrix.C76_diverges"], "note": "Exact arithmetic; the walk over the reals. A polygon with one vertex is read beyond its end (C76_single), if all vertices are equal the loop does not end (C76_diverges), and without a positive length the result is empty (C76_nothing). Distances are taken to be smaller than the largest number."},
 {"property": "C77", "status": "partial", "theorems": ["Geometrix.C77_small_partial", "Geometrix.C77_clockwise_partial", "Geometrix.C77_true_partial", "Geometrix.C77_extreme_partial", "Geometrix.C77_counterclockwise_refuted", "Geometrix.C77_quadrilateral_refuted", "Geometrix.C77_extreme_refuted", "Geometrix.C77_diverges_refuted"], "note": "Counterclockwise polygons are judged by the wrong side of each edge: a triangle inside another is reported as not intersecting (C77_counterclockwise_refuted). The search for the furthest vertex may give a wrong one already for four vertices (C77_extreme_refuted, C77_quadrilateral_refuted) and may not end for five (C77_diverges_refuted). Proved for clockwise triangles and parallelograms, for clockwise polygons for which the search is right, and for the answer true of clockwise polygons of any size."},
 {"property": "C78", "status": "proved", "theorems": ["Geometrix.C78_moving_boxes", "Geometrix.C78_negative_tmax"], "note": "Exact arithmetic. With a negative tmax boxes that overlap at the start are reported (C78_negative_tmax)."},
 {"property": "C79", "status": "partial", "theorems": ["Geometrix.C79_small_partial", "Geometrix.C79_convex_partial", "Geometrix.C79_hit_partial", "Geometrix.C79_quadrilateral_refuted", "Geometrix.C79_diverges_refuted"], "note": "The search for the furthest vertex fails as in C77 (C79_quadrilateral_refuted, C79_diverges_refuted). Proved for triangles and parallelograms in either order, for polygons for which the search is right, and for every answer that polygons meet."},
 {"property": "C80", "status": "partial", "theorems": ["Geometrix.C80_hyperplane", "Geometrix.C80_off_lines_partial", "Geometrix.C80_no_two_on_a_line_partial", "Geometrix.C80_refuted"], "note": "A point between two sides on the same line is classed as on the boundary (C80_refuted). Proved for all points off the lines of the sides, and for all points if no two sides are on a line."},
 {"property": "C81", "status": "proved", "theorems": ["Geometrix.C81_distance", "Geometrix.C81_empty"], "note": "Exact arithmetic; also for sides that are not the border of a solid."},
 {"property": "C82", "status": "partial", "theorems": ["Geometrix.C82_off_lines_partial", "Geometrix.C82_on_line_refuted", "Geometrix.C82_two_on_a_line_refuted", "Geometrix.C82_only_border_refuted"], "note": "Wrong for a ray that starts on the line of a side and goes to its front (C82_on_line_refuted), for two sides on a line (C82_two_on_a_line_refuted), and ray_intersection_only_border from inside stops at a dividing line (C82_only_border_refuted). Proved for starts off the lines of the sides if no two sides are on a line, for ray_intersection_only_border from outside the solid."},
 {"property": "C83", "status": "partial", "theorems": ["Geometrix.C83_total", "Geometrix.C83_flat", "Geometrix.C83_selectors", "Geometrix.C83_off_border", "Geometrix.C83_on_border_partial", "Geometrix.C83_on_border_refuted"], "note": "Right for every point that is not on a side (C83_off_border). A point of a side which is also on the line of another side may be reported outside (C83_on_border_refuted); e_boundary is proved for points of the sides that are on no line of a side not containing them."},
 {"property": "C84", "status": "partial", "theorems": ["Geometrix.C84_visits", "Geometrix.C84_order", "Geometrix.C84_visits_any_partial", "Geometrix.C84_order_any_partial", "Geometrix.C84_skipped_refuted", "Geometrix.C84_order_refuted"], "note": "Proved for viewpoints on no line of a side. For a viewpoint on a splitting line the segments on it are skipped (C84_skipped_refuted) or visited in an order that may be wrong (C84_order_refuted); for all other segments it holds for any viewpoint."},
 {"property": "C85", "status": "partial", "theorems": ["Geometrix.C85_exchanged_partial", "Geometrix.C85_refuted"], "note": "The arguments of classify are exchanged, the score counts the lines of the other segments that cut the segment (C85_refuted). Proved: the answer is the first segment with the smallest exchanged score."},
 {"property": "C86", "status": "partial", "theorems": ["Geometrix.C86_construct", "Geometrix.C86_triangles", "Geometrix.C86_counterclockwise_partial", "Geometrix.C86_degenerate_refuted", "Geometrix.C86_integral"], "note": "A triple of three different points on one line is kept as a triangle of the mesh although it is degenerate, and a mesh of such triangles divides by zero (C86_degenerate_refuted). All other parts hold: the assertion, the triangles kept, their order and orientation, the table of areas."},
 {"property": "C87", "status": "partial", "theorems": ["Geometrix.C87_inside", "Geometrix.C87_share", "Geometrix.C87_uniform", "Geometrix.C87_rejects", "Geometrix.C87_range_refuted", "Geometrix.C87_distribution", "Geometrix.C87_uniform_mesh"], "note": "The assertions on r1 and r2 (mesh_2d.hpp:208-209) test rT once more, so that a number out of range gives a point outside the mesh (C87_range_refuted). For numbers between 0 and 1 the claim is proved: the positions are uniformly distributed in the mesh (C87_distribution, C87_uniform_mesh)."},
 {"property": "C88", "status": "proved", "theorems": ["Geometrix.C88_entry", "Geometrix.C88_mutual", "Geometrix.C88_other", "Geometrix.C88_overlap", "Geometrix.C88_side", "Geometrix.C88_side_entry"], "note": "The mutual part has the precondition that no side occurs twice in the same direction; C88_overlap shows that it is needed."},
 {"property": "C89", "status": "proved", "theorems": ["Geometrix.C89_exact", "Geometrix.C89_tolerance", "Geometrix.C89_vertices"], "note": "Precondition: three different vertices and a box whose low corner is not above its high corner."},
 {"property": "C90", "status": "partial", "theorems": ["Geometrix.C90_construct", "Geometrix.C90_find_partial", "Geometrix.C90_find", "Geometrix.C90_flat_refuted"], "note": "Proved for meshes without flat triangles (C90_find). A flat triangle is kept by the constructor and is found for every point of its line in one of its cells, also outside it (C90_flat_refuted); what holds for all meshes is C90_find_partial."},
 {"property": "C91", "status": "partial", "theorems": ["Geometrix.C91_polyline", "Geometrix.C91_polygon", "Geometrix.C91_epsilon_partial", "Geometrix.C91_epsilon_refuted", "Geometrix.C91_single_refuted"], "note": "Proved for the test of a segment and a box without its epsilon (C91_polyline, C91_polygon). With the epsilon of the code no common point is missed (C91_epsilon_partial), but some polylines and polygons outside the box are reported (C91_epsilon_refuted). A polygon of one vertex is read out of range (C91_single_refuted)."},
 {"property": "C92", "status": "proved", "theorems": ["Geometrix.C92_border", "Geometrix.C92_single_refuted"], "note": "C92_single_refuted shows that the precondition of two or more vertices is needed: a polygon of one vertex is read out of range."},
 {"property": "C93", "status": "partial", "theorems": ["Geometrix.C93_total", "Geometrix.C93_preconditions", "Geometrix.C93_answer_partial", "Geometrix.C93_crossing", "Geometrix.C93_sides_cross", "Geometrix.C93_touching", "Geometrix.C93_apart_partial", "Geometrix.C93_repeat_refuted", "Geometrix.C93_inside_refuted"], "note": "Proved: the bound on the turns and the possible faults (C93_total); if the borders meet and no vertex of one polygon is on the border of the other, the answer is overlapping and the visitor gets each vertex of the common part exactly once (C93_crossing); in any position in which sides cross, the answer is overlapping and every point where sides cross is visited (C93_sides_cross); if the polygons have a common point inside and the borders meet, with vertices on sides or on vertices as they may but not along parallel sides, the answer is overlapping and every common point of the borders is visited (C93_touching); the answers if the borders are disjoint (C93_apart_partial); in every position each answer but none means a common point, face means that the common part is the segment between the last two points given, and the points visited are on both borders or vertices (C93_answer_partial). Missing: borders that meet along parallel sides, polygons that touch from outside, and which inner vertices are visited if a vertex of one polygon is on the border of the other. The code fails for a first polygon inside a second one with another number of vertices (C93_inside_refuted) and visits some points twice (C93_repeat_refuted)."},
 {"property": "C94", "status": "partial", "theorems": ["Geometrix.C94_range_partial", "Geometrix.C94_opposite_refuted", "Geometrix.C94_reflex_refuted", "Geometrix.C94_points_partial", "Geometrix.C94_points_opposite_refuted", "Geometrix.C94_points_acute_refuted", "Geometrix.C94_points_touch_refuted"], "note": "Proved: the overload without points for all cones of less than half a turn, but for segments between the two opposite rays (C94_range_partial); the overload with points for cones of at least a quarter turn and segments whose ends are on neither line and that do not meet the ray opposite to the first direction (C94_points_partial). The code fails in the other cases (C94_opposite_refuted, C94_reflex_refuted, C94_points_opposite_refuted, C94_points_acute_refuted, C94_points_touch_refuted)."},
 {"property": "C95", "status": "partial", "theorems": ["Geometrix.C95_side_partial", "Geometrix.C95_on", "Geometrix.C95_start_refuted"], "note": "Proved for all points but those behind the start of a polyline of three or more vertices (C95_side_partial); points on the polyline are collinear (C95_on). Behind the start the code takes the second vertex for the closest point, because the parameter of the closest point is not limited to [0,1], and may answer with the wrong side (C95_start_refuted)."},
 {"property": "C96", "status": "partial", "theorems": ["Geometrix.C96_slerp_partial", "Geometrix.C96_slerp_ends", "Geometrix.C96_slerp_opposite_refuted", "Geometrix.C96_lerp", "Geometrix.C96_projection"], "note": "slerp is proved for unit vectors that are not opposite (C96_slerp_partial, C96_slerp_ends); for opposite ones it divides by zero (C96_slerp_opposite_refuted). lerp and vector_projection are proved in full (C96_lerp, C96_projection)."},
 {"property": "C97", "status": "partial", "theorems": ["Geometrix.C97_offset_partial", "Geometrix.C97_short", "Geometrix.C97_straight_refuted", "Geometrix.C97_untrimmed_partial", "Geometrix.C97_corner", "Geometrix.C97_uturn_refuted"], "note": "polyline_offset is proved for polylines that turn at every inner vertex (C97_offset_partial); where the polyline goes straight on it pushes an unset point (C97_straight_refuted). The untrimmed offset is proved for polylines that never turn straight back (C97_untrimmed_partial); there it pushes nothing (C97_uturn_refuted). Fewer than two points fail the assertion (C97_short)."},
 {"property": "C98", "status": "partial", "theorems": ["Geometrix.C98_set", "Geometrix.C98_split", "Geometrix.C98_split_empty", "Geometrix.C98_cover", "Geometrix.C98_liu_partial", "Geometrix.C98_liu_close_refuted"], "note": "The set of intersections and the pieces are proved in full (C98_set, C98_split, C98_cover). Of liu_polyline_offset it is proved which pieces it returns (C98_liu_partial); the result may be closer to the polyline than the given distance (C98_liu_close_refuted)."},
 {"property": "C99", "status": "proved", "theorems": ["Geometrix.C99_first", "Geometrix.C99_scored"], "note": "Both selectors, for exact comparison."},
 {"property": "C100", "status": "partial", "theorems": ["Geometrix.C100_partial", "Geometrix.C100_down_refuted"], "note": "Proved for all segments that do not go down within one column of cells (C100_partial). For those the index is counted up until it wraps (C100_down_refuted)."},
 {"property": "C101", "status": "partial", "theorems": ["Geometrix.C101_points_partial", "Geometrix.C101_clockwise_refuted", "Geometrix.C101_test_partial", "Geometrix.C101_never_misses", "Geometrix.C101_flat_refuted"], "note": "Points proved for counterclockwise triangles (C101_points_partial); for clockwise ones a segment inside is missed (C101_clockwise_refuted). The test is proved for all triangles with area (C101_test_partial) and never misses a common point (C101_never_misses); for flat triangles it may wrongly answer true (C101_flat_refuted)."},
 {"property": "C102", "status": "partial", "theorems": ["Geometrix.C102_parallel_partial", "Geometrix.C102_beyond_partial", "Geometrix.C102_upper_partial", "Geometrix.C102_crossing_refuted", "Geometrix.C102_parallel_refuted", "Geometrix.C102_point_refuted", "Geometrix.C102_division_refuted"], "note": "The code disagrees with the property (C102_crossing_refuted, C102_parallel_refuted, C102_point_refuted, C102_division_refuted). Proved where it holds: parallel segments of opposite direction, or of one direction in one order (C102_parallel_partial); lines that cross beyond both ends (C102_beyond_partial). For segments that are not parallel the result is never too small (C102_upper_partial)."},
 {"property": "C103", "status": "proved", "theorems": ["Geometrix.C103_there_and_back", "Geometrix.C103_ranges", "Geometrix.C103_formula", "Geometrix.C103_back_and_there", "Geometrix.C103_length"], "note": "In every dimension from 2 on; exact real arithmetic."},
 {"property": "C104", "status": "partial", "theorems": ["Geometrix.C104_sequences", "Geometrix.C104_polygons", "Geometrix.C104_first", "Geometrix.C104_offset_partial", "Geometrix.C104_repeated_refuted"], "note": "Equality is proved in full for exact comparison (C104_sequences, C104_polygons), and what the offset is (C104_first). The offset is the right one if no point occurs twice (C104_offset_partial), else it may be wrong (C104_repeated_refuted)."},
 {"property": "C105", "status": "partial", "theorems": ["Geometrix.C105_order_partial", "Geometrix.C105_tolerance_refuted"], "note": "Proved for exact comparison (C105_order_partial). False for a tolerance (C105_tolerance_refuted)."},
 {"property": "C106", "status": "partial", "theorems": ["Geometrix.C106_box_partial", "Geometrix.C106_frame", "Geometrix.C106_axes_refuted", "Geometrix.C106_apart_refuted"], "note": "Proved for axes that are turned to the left and starts more than the radius away along an axis (C106_box_partial), and for every start that the answer is that of the function for boxes in the frame of the box (C106_frame). With axes turned to the right the box is made smaller instead of larger (C106_axes_refuted); near a corner a sphere that does not meet the box may be reported at the time zero (C106_apart_refuted)."},
 {"property": "C107", "status": "partial", "theorems": ["Geometrix.C107_points", "Geometrix.C107_class_partial", "Geometrix.C107_class_refuted", "Geometrix.C107_first_point_refuted", "Geometrix.C107_second_point_refuted"], "note": "The common points are right for every pair with a first segment that is not a single point (C107_points). The class is right with respect to the ends of the second segment (C107_class_partial) but ends of the first segment are ignored (C107_class_refuted); a single point as first segment divides by zero, as second segment it is overlapping (C107_first_point_refuted, C107_second_point_refuted)."},
 {"property": "C108", "status": "partial", "theorems": ["Geometrix.C108_y_of_x", "Geometrix.C108_x_of_y_partial", "Geometrix.C108_vertical_refuted", "Geometrix.C108_horizontal", "Geometrix.C108_integer_refuted", "Geometrix.C108_rational_y_of_x", "Geometrix.C108_rational_x_of_y_partial", "Geometrix.C108_rational_throws"], "note": "y_of_x and the rational variant are right for every line that is not vertical; x_of_y for every line that is neither vertical nor horizontal. On vertical lines x_of_y divides by zero (C108_vertical_refuted); with integer coordinates the slope is rounded (C108_integer_refuted)."},
 {"property": "C109", "status": "partial", "theorems": ["Geometrix.C109_decimals", "Geometrix.C109_digits_partial", "Geometrix.C109_digits_refuted", "Geometrix.C109_zeros_refuted"], "note": "No overflow and p - 1 decimals up to 15000 digits (C109_decimals); the digits are right for the listed precisions up to 32 (C109_digits_partial) and wrong for all others up to 33 and for 36 (C109_digits_refuted, C109_zeros_refuted)."},
 {"property": "C110", "status": "partial", "theorems": ["Geometrix.C110_sweep_partial", "Geometrix.C110_few_crossings_partial", "Geometrix.C110_capacity_refuted", "Geometrix.C110_point_refuted"], "note": "Complete and sound for all vectors of segments with two different ends, including vertical, overlapping and equal ones and multiple crossings, as long as the event queue does not outgrow the places reserved (C110_sweep_partial), which holds if there are not more crossing points than segments (C110_few_crossings_partial). Eight segments can outgrow it, which moves an element that is in use (C110_capacity_refuted); a segment of one point can hide a crossing (C110_point_refuted)."},
 {"property": "C111", "status": "partial", "theorems": ["Geometrix.C111_linked_partial", "Geometrix.C111_join_refuted", "Geometrix.C111_fork_refuted", "Geometrix.C111_endless_refuted", "Geometrix.C111_copy_refuted"], "note": "For segments with distinct starts and distinct ends. Refuted otherwise: a segment is lost, the assertion fails, or the loop does not end (C111_join_refuted, C111_fork_refuted, C111_endless_refuted). A copy of the list is not usable (C111_copy_refuted)."},
 {"property": "C112", "status": "partial", "theorems": ["Geometrix.C112_double", "Geometrix.C112_swap", "Geometrix.C112_vectors", "Geometrix.C112_points", "Geometrix.C112_integers", "Geometrix.C112_far_partial", "Geometrix.C112_tolerance", "Geometrix.C112_side_refuted", "Geometrix.C112_cyclic_refuted"], "note": "Exact for small integers (C112_integers) and for triangles that are not thin (C112_far_partial); never the wrong side for vectors (C112_vectors) and with a sufficient tolerance (C112_tolerance). With the direct comparison of double a thin triangle is reported on the wrong side (C112_side_refuted) and the answer depends on the first point (C112_cyclic_refuted)."},
 {"property": "C113", "status": "partial", "theorems": ["Geometrix.C113_valid", "Geometrix.C113_order", "Geometrix.C113_near_partial", "Geometrix.C113_box", "Geometrix.C113_cell_refuted"], "note": "Indices are always in range (C113_valid) and grow with the coordinates (C113_order). The point is in the box of its cell only up to rounding (C113_near_partial); with double and the cell width 0.1 the point 0.3 is outside of it (C113_cell_refuted)."},
 {"property": "C114", "status": "proved", "theorems": ["Geometrix.C114_symmetric", "Geometrix.C114_error", "Geometrix.C114_zero", "Geometrix.C114_compare", "Geometrix.C114_dot", "Geometrix.C114_cancellation"], "note": "Without underflow and overflow. C114_cancellation shows why the bound for the dot product is not relative to its value."},
 {"property": "C115", "status": "partial", "theorems": ["Geometrix.C115_search_partial", "Geometrix.C115_loop_refuted", "Geometrix.C115_hidden_refuted"], "note": "Proved when no two vertices are on one line with the point and the vertices that are seen are on the border of the mesh (C115_search_partial). False otherwise: the search goes round a visible vertex inside the mesh forever (C115_loop_refuted), and reports a vertex that is not seen when two vertices are on one ray (C115_hidden_refuted)."},
 {"property": "C116", "status": "proved", "theorems": ["Geometrix.C116_fast", "Geometrix.C116_two", "Geometrix.C116_init", "Geometrix.C116_split", "Geometrix.C116_product"], "note": "For rounding to nearest, ties to even, with any number of bits from 6 on and unbounded exponents."},
 {"property": "C117", "status": "partial", "theorems": ["Geometrix.C117_grow", "Geometrix.C117_grow_zeroelim", "Geometrix.C117_grow_strong_refuted", "Geometrix.C117_sum", "Geometrix.C117_sum_zeroelim1", "Geometrix.C117_sum_zeroelim2", "Geometrix.C117_fast_partial", "Geometrix.C117_fast_zeroelim_partial", "Geometrix.C117_fast_strong_refuted", "Geometrix.C117_fast_bounds_refuted", "Geometrix.C117_estimate"], "note": "Exactness and the nonoverlapping and nonadjacent properties are proved. The comments say that grow_expansion and fast_expansion_sum keep expansions strongly nonoverlapping; with double they do not (C117_grow_strong_refuted, C117_fast_strong_refuted). What fast_expansion_sum keeps is a weaker property that is enough for the predicates (C117_fast_partial). fast_expansion_sum always reads one element behind an array (C117_fast_bounds_refuted)."},
 {"property": "C118", "status": "partial", "theorems": ["Geometrix.C118_sign_partial", "Geometrix.C118_exact_partial", "Geometrix.C118_bounds_refuted", "Geometrix.C118_returns", "Geometrix.C118_exact_differences", "Geometrix.C118_exact_bounds_refuted", "Geometrix.C118_fast"], "note": "orient2d and orient2dexact have the sign of the exact determinant if there is something to read behind the arrays (C118_sign_partial, C118_exact_partial). With arrays that end where they are declared to end this is false: C118_bounds_refuted, C118_exact_bounds_refuted; but what orient2d returns is right (C118_returns), and it returns if the differences of the coordinates are exact (C118_exact_differences)."},
 {"property": "C119", "status": "partial", "theorems": ["Geometrix.C119_scale_partial", "Geometrix.C119_scale_zeroelim_partial", "Geometrix.C119_scale_strong_refuted", "Geometrix.C119_linear_partial", "Geometrix.C119_linear_zeroelim_partial", "Geometrix.C119_linear_bounds_refuted", "Geometrix.C119_compress", "Geometrix.C119_empty"], "note": "Exactness, the nonoverlapping and nonadjacent properties, and compress are proved. The comments say that scale_expansion keeps expansions strongly nonoverlapping; with double it does not (C119_scale_strong_refuted), but the product is nearly nonadjacent (C119_scale_partial). linear_expansion_sum always reads one element behind an array (C119_linear_bounds_refuted)."},
 {"property": "C120", "status": "partial", "theorems": ["Geometrix.C120_orient3d_partial", "Geometrix.C120_plane", "Geometrix.C120_incircle_partial", "Geometrix.C120_circle", "Geometrix.C120_insphere_partial", "Geometrix.C120_sphere", "Geometrix.C120_bounds_refuted", "Geometrix.C120_orient3d_fast", "Geometrix.C120_incircle_fast", "Geometrix.C120_insphere_fast"], "note": "The signs, the distance from the exact determinant and that no result is too long for its array are proved if there is something to read behind the arrays (C120_orient3d_partial, C120_incircle_partial, C120_insphere_partial), the meaning of the determinants and the bounds of the fast functions without that. With arrays that end where they are declared to end every call reads an element behind an array: C120_bounds_refuted."},
 {"property": "C121", "status": "partial", "theorems": ["Geometrix.C121_sign_partial", "Geometrix.C121_bounds_refuted", "Geometrix.C121_returns"], "note": "orient3d has the sign of the exact determinant if there is something to read behind the arrays (C121_sign_partial). With arrays that end where they are declared to end it reads behind one for points that are nearly in one plane (C121_bounds_refuted); what it returns for other points is right (C121_returns)."},
 {"property": "C122", "status": "partial", "theorems": ["Geometrix.C122_sign_partial", "Geometrix.C122_circle_partial", "Geometrix.C122_bounds_refuted", "Geometrix.C122_returns"], "note": "incircle has the sign of the exact determinant, which says where the point is, if there is something to read behind the arrays (C122_sign_partial, C122_circle_partial). With arrays that end where they are declared to end it reads behind one for points that are nearly on one circle (C122_bounds_refuted); what it returns for other points is right (C122_returns)."},
 {"property": "C123", "status": "partial", "theorems": ["Geometrix.C123_value_partial", "Geometrix.C123_rectangular_refuted", "Geometrix.C123_matrix_scalar_refuted", "Geometrix.C123_outer_refuted", "Geometrix.C123_tensor_refuted", "Geometrix.C123_mismatch_refuted"], "note": "Proved for every expression in which a matrix applied to a vector or point is square, no sum of products has one term, no matrix stands left of a scalar, no & joins two vectors or a vector and a matrix with more columns than rows, determinants are at most 10x10 and inverses 2x2 to 10x10. Outside these conditions it is false: refuted for matrices that are not square, matrix times scalar, outer products, the tensor product of vectors, and operands whose sizes do not fit (which compile and truncate)."},
 {"property": "C124", "status": "partial", "theorems": ["Geometrix.C124_layout_partial", "Geometrix.C124_strips", "Geometrix.C124_wide_refuted", "Geometrix.C124_overlap_refuted"], "note": "Proved for layouts in which a block below others spans few of their edges (C124_layout_partial), and for all matrices made of strips of blocks of equal height (C124_strips). In general it is false: a block below several narrower ones makes the algorithm place the next block over a taller one or fail to compile (C124_wide_refuted), and blocks that do not fit compile (C124_overlap_refuted)."},
 {"property": "C125", "status": "partial", "theorems": ["Geometrix.C125_point", "Geometrix.C125_direction", "Geometrix.C125_identity", "Geometrix.C125_trace_partial", "Geometrix.C125_trace_refuted"], "note": "Points, directions and identity matrices: proved without restriction (C125_point, C125_direction, C125_identity). The trace is proved for sizes from 2 on; for size 1 it does not compile and for matrices wider than high it does (C125_trace_refuted)."},
 {"property": "C126", "status": "partial", "theorems": ["Geometrix.C126_sign_partial", "Geometrix.C126_exact_differences", "Geometrix.C126_sphere_partial", "Geometrix.C126_bounds_refuted", "Geometrix.C126_returns"], "note": "Proved with something to read behind the arrays, for determinants larger than 20 eps^2 times the size of their products, and for all determinants if the differences of coordinates are exact (C126_exact_differences); a result of zero is always right. Smaller determinants: open. With arrays that end where they are declared to end it does not return for points on one sphere (C126_bounds_refuted), but what it returns has the right sign (C126_returns)."},
 {"property": "C127", "status": "partial", "theorems": ["Geometrix.C127_assemble_partial", "Geometrix.C127_variables", "Geometrix.C127_emptied_refuted", "Geometrix.C127_sides_partial", "Geometrix.C127_point_refuted"], "note": "set_outer and add_hole take forwarding references and move from them, so that a variable passed without std::move is emptied (C127_emptied_refuted, C127_variables). The object is right if no variable that is not const is named twice (C127_assemble_partial). The sides are right unless a polygon has exactly one point, where the code reads behind the vector (C127_sides_partial, C127_point_refuted)."},
 {"property": "C128", "status": "partial", "theorems": ["Geometrix.C128_double_partial", "Geometrix.C128_float", "Geometrix.C128_sqrt_refuted", "Geometrix.C128_sqrt_partial", "Geometrix.C128_long_refuted"], "note": "Right for float, and for double but for sqrt_2, whose literal has one digit too few, so that it is rounded to the wrong neighbour (C128_sqrt_refuted, C128_sqrt_partial). The constants of long double are those of double (C128_long_refuted)."},
 {"property": "C129", "status": "proved", "theorems": ["Geometrix.C129_sequence", "Geometrix.C129_negative", "Geometrix.C129_types", "Geometrix.C129_depth"], "note": ""},
 {"property": "C130", "status": "partial", "theorems": ["Geometrix.C130_index_partial", "Geometrix.C130_index_refuted", "Geometrix.C130_selector_refuted", "Geometrix.C130_selector_partial", "Geometrix.C130_uniform", "Geometrix.C130_integer", "Geometrix.C130_consecutive", "Geometrix.C130_copy_refuted", "Geometrix.C130_shared_refuted"], "note": "The bound itself may be the result (C130_index_refuted), so that the selector may return the end of the range (C130_selector_refuted); all else about single generators is proved. A copy refers to the engine of the original (C130_copy_refuted, C130_shared_refuted). Boost's distribution is part of the model; sizes from 2^32 on are not modelled."},
 {"property": "C131", "status": "partial", "theorems": ["Geometrix.C131_color_partial", "Geometrix.C131_generate", "Geometrix.C131_negative_refuted"], "note": "Proved for all hues that are not negative (C131_color_partial, C131_generate), with exact arithmetic. Negative hues give black (C131_negative_refuted)."},
 {"property": "C132", "status": "proved", "theorems": ["Geometrix.C132_plane", "Geometrix.C132_parallel", "Geometrix.C132_points", "Geometrix.C132_point", "Geometrix.C132_thick", "Geometrix.C132_simplex"], "note": "exact arithmetic over the reals; make_hyperplane of a simplex in space does not compile and is not modelled"},
 {"property": "C133", "status": "partial", "theorems": ["Geometrix.C133_value_partial", "Geometrix.C133_fresh", "Geometrix.C133_cross_refuted", "Geometrix.C133_matrix_refuted", "Geometrix.C133_norm_refuted", "Geometrix.C133_kind_refuted"], "note": "holds where the left side occurs elementwise only, and in the expressions that C123 supports; refuted for cross products, matrices and directions of the left side, and for a point assigned to a vector"},
 {"property": "C134", "status": "partial", "theorems": ["Geometrix.C134_access_partial", "Geometrix.C134_set", "Geometrix.C134_large_refuted"], "note": "reading holds for indices below 2^31, writing for all; from 2^31 to 2^32 - 1 the check of get(i) and operator[] is passed and memory behind the array is read"},
 {"property": "C135", "status": "partial", "theorems": ["Geometrix.C135_value", "Geometrix.C135_assign", "Geometrix.C135_init", "Geometrix.C135_compound", "Geometrix.C135_compare", "Geometrix.C135_strong_types_refuted"], "note": "the value, the rules of assignment, initialisation, compound assignment and comparison are proved; as a system of strong types it is refuted: a product of two lengths is a length, a sum of a length and a time compiles, abs of a length cannot be assigned to a length or compared with one, a plain number can be assigned"},
 {"property": "C136", "status": "partial", "theorems": ["Geometrix.C136_compiles", "Geometrix.C136_policy", "Geometrix.C136_coherent_partial", "Geometrix.C136_tolerance", "Geometrix.C136_mixed_refuted"], "note": "proved for numbers of one type and for types with the same policy, in particular for policies made from one tolerance; refuted for types with different policies: the policy is that of the first number, so equals is not symmetric"},
 {"property": "C137", "status": "proved", "theorems": ["Geometrix.C137_uniform_double", "Geometrix.C137_double", "Geometrix.C137_narrow_double", "Geometrix.C137_uniform_float", "Geometrix.C137_float"], "note": "random() is a parameter; arithmetic with 53 or 24 bits and no bound on exponents, the bounds are proved"},
 {"property": "C138", "status": "partial", "theorems": ["Geometrix.C138_function", "Geometrix.C138_function_partial", "Geometrix.C138_rounding_integers", "Geometrix.C138_floor_partial", "Geometrix.C138_function_refuted", "Geometrix.C138_limits", "Geometrix.C138_epsilon_partial", "Geometrix.C138_round_error", "Geometrix.C138_epsilon_refuted", "Geometrix.C138_min_refuted"], "note": "functions are right for integers, floor for numbers that are not negative, ceil for those that are not positive; refuted for others, since the conversion to double loses the fraction. max, epsilon and round_error are right, epsilon only if the denominator fits an int (refuted otherwise); min is the least number instead of the smallest positive one and denorm_min is zero (refuted)"},
 {"property": "C139", "status": "partial", "theorems": ["Geometrix.C139_width", "Geometrix.C139_order", "Geometrix.C139_sequence", "Geometrix.C139_two_partial", "Geometrix.C139_narrower", "Geometrix.C139_two_refuted", "Geometrix.C139_function_partial", "Geometrix.C139_function_refuted", "Geometrix.C139_dot_partial", "Geometrix.C139_dot_same", "Geometrix.C139_dot_refuted"], "note": "the order of the types and the selection from a sequence are proved. From two types the narrower one is selected, for example int from int and double (refuted); so pow( 1.5, 2 ) in an expression is computed as pow( 1, 2 ) and a dot product of double and int vectors loses its fraction (refuted). Proved for numbers that the narrower type has and for equal types"},
 {"property": "C140", "status": "partial", "theorems": ["Geometrix.C140_promote", "Geometrix.C140_promote_near", "Geometrix.C140_div", "Geometrix.C140_demote", "Geometrix.C140_round_trip_partial", "Geometrix.C140_round_trip_refuted", "Geometrix.C140_widen", "Geometrix.C140_product_partial", "Geometrix.C140_product_refuted", "Geometrix.C140_casts", "Geometrix.C140_casts_inverse"], "note": "proved for integers of up to 53 bits, and for products of types of up to 32 bits. Refuted for integers of 64 bits: the promotion rounds, demoting the largest and the least one throws, and there is no wider type for the product"},
 {"property": "C141", "status": "proved", "theorems": ["Geometrix.C141_lexicographical", "Geometrix.C141_order", "Geometrix.C141_pairs"], "note": ""},
 {"property": "C142", "status": "partial", "theorems": ["Geometrix.C142_value_partial", "Geometrix.C142_chain_partial", "Geometrix.C142_scale", "Geometrix.C142_size_refuted", "Geometrix.C142_size", "Geometrix.C142_cross_refuted"], "note": "Proved for expressions in which the left side occurs elementwise, with any number of elements, for chains of two, and for *= and /=. Refuted otherwise: v += v ^ w reads elements already written (C142_cross_refuted), and an expression with fewer elements compiles and leaves the rest of v unchanged (C142_size, C142_size_refuted). Missing: expressions that are not Supported (see C123)."},
 {"property": "C143", "status": "partial", "theorems": ["Geometrix.C143_get_partial", "Geometrix.C143_outside", "Geometrix.C143_set_partial", "Geometrix.C143_set_get_partial", "Geometrix.C143_set_outside", "Geometrix.C143_minor_set", "Geometrix.C143_row_partial", "Geometrix.C143_row_refuted", "Geometrix.C143_product_partial", "Geometrix.C143_product_refuted", "Geometrix.C143_product_vector_refuted", "Geometrix.C143_row_vector_refuted", "Geometrix.C143_member_partial", "Geometrix.C143_member_refuted", "Geometrix.C143_row_set_refuted", "Geometrix.C143_row_set_partial", "Geometrix.C143_excluded_refuted"], "note": "Proved for all nestings: reading (C143_get_partial), places outside (C143_outside, C143_set_outside), writing (C143_set_partial, C143_set_get_partial), and rows and columns of matrices and of matrices of blocks (C143_row_partial, C143_row_set_partial, C143_member_partial) and products of these (C143_product_partial), under preconditions that are those of C124 and C134. Refuted: get of a row or column of a minor reads another element, so products with minors are wrong (C143_row_refuted, C143_product_refuted), the product of a column vector and a row vector does not compile (C143_product_vector_refuted), rows and columns of vectors cannot be read (C143_row_vector_refuted), rows of matrices cannot be written (C143_row_set_refuted), the member function of a row of a column vector accepts any column (C143_member_refuted), and a minor may exclude a row that does not exist (C143_excluded_refuted)."},
 {"property": "C144", "status": "partial", "theorems": ["Geometrix.C144_place_partial", "Geometrix.C144_path_partial", "Geometrix.C144_get_cartesian_partial", "Geometrix.C144_get_polar_partial", "Geometrix.C144_neutral_refuted", "Geometrix.C144_untagged_refuted", "Geometrix.C144_neutral_neutral_refuted"], "note": "Proved for sequences of Cartesian and polar frames of any length, in every dimension. Refuted with the neutral frame: through it the coordinates are taken over unchanged (C144_neutral_refuted), get_r and get_theta of a point without a frame are its first two coordinates (C144_untagged_refuted), and a conversion from the neutral frame to itself does not compile (C144_neutral_neutral_refuted)."},
 {"property": "C145", "status": "partial", "theorems": ["Geometrix.C145_compare_partial", "Geometrix.C145_compare_int_partial", "Geometrix.C145_order", "Geometrix.C145_compare_refuted", "Geometrix.C145_range_refuted", "Geometrix.C145_add_partial", "Geometrix.C145_mul_partial", "Geometrix.C145_left_partial", "Geometrix.C145_left_refuted", "Geometrix.C145_convert", "Geometrix.C145_assign", "Geometrix.C145_convert_partial", "Geometrix.C145_convert_refuted"], "note": "Comparisons and arithmetic are proved for numbers that are multiples of the unit and fit the format; for other numbers the order answers are proved one way (true answers of < and > are right, == means closer than the unit). Refuted: other numbers are compared after rounding, numbers out of range throw, a number on the left of - and / gets the default run time scale, and conversions to another fixed point type lose the fraction."},
 {"property": "C146", "status": "partial", "theorems": ["Geometrix.C146_max_size", "Geometrix.C146_sound_partial", "Geometrix.C146_deallocate", "Geometrix.C146_overflow_refuted"], "note": "Proved for all histories whose requests are at most max_size() elements. A larger request does not fail: the size wraps around and the arrays share memory (C146_overflow_refuted)."},
 {"property": "C147", "status": "partial", "theorems": ["Geometrix.C147_stats", "Geometrix.C147_empty", "Geometrix.C147_clear_refuted", "Geometrix.C147_sum_refuted", "Geometrix.C147_rounded", "Geometrix.C147_constant", "Geometrix.C147_accuracy", "Geometrix.C147_report_partial", "Geometrix.C147_no_file", "Geometrix.C147_clock_refuted"], "note": "Count, mean, variance and sum (modulo 2^64) are proved for exact arithmetic; with rounding to any number of bits from 2 on: the bounds of the mean, its distance from the exact mean, that the variance is not negative, and the values for equal numbers. Refuted: clear() does not reset the sum (C147_clear_refuted), the sum of an empty object is indeterminate (C147_sum_refuted). The report is proved if the clock does not go back; else a duration is nearly 2^64 (C147_clock_refuted)."},
 {"property": "C148", "status": "partial", "theorems": ["Geometrix.C148_segments", "Geometrix.C148_point_segment", "Geometrix.C148_box", "Geometrix.C148_polyline", "Geometrix.C148_polygon_border", "Geometrix.C148_disc", "Geometrix.C148_polygon_partial", "Geometrix.C148_polygon_refuted", "Geometrix.C148_border_refuted", "Geometrix.C148_convex", "Geometrix.C148_trees", "Geometrix.C148_segment_box", "Geometrix.C148_disc_box", "Geometrix.C148_boxes", "Geometrix.C148_oriented_box", "Geometrix.C148_triangle", "Geometrix.C148_quadrilateral", "Geometrix.C148_segment_triangle", "Geometrix.C148_triangle_box", "Geometrix.C148_simple_partial", "Geometrix.C148_simple_solid_partial"], "note": "Proved for segments, points and segments, boxes, polylines, borders of polygons and discs; for strictly convex polygons all tests and both kinds of trees agree everywhere. For other polygons polygon_containment, the distance and point_in_polygon agree except for points inside two or more sides, where they do not (C148_polygon_refuted). On the border point_in_polygon disagrees with the convex test (C148_border_refuted)."},
 {"property": "C149", "status": "proved", "theorems": ["Geometrix.C149_turn", "Geometrix.C149_left", "Geometrix.C149_right", "Geometrix.C149_area", "Geometrix.C149_tested"], "note": "C149_turn, C149_left and C149_right prove the border, C149_area the sign of get_signed_area. C149_tested states the result with is_polygon_simple, for at least four vertices; for three see C47."},
 {"property": "C150", "status": "proved", "theorems": ["Geometrix.C150_area", "Geometrix.C150_tested", "Geometrix.C150_centroid", "Geometrix.C150_inside", "Geometrix.C150_diagonal"], "note": "Over the reals, with the Lebesgue measure of the plane; the cut along a diagonal (C150_diagonal) over every ordered field. C150_tested states the result with is_polygon_simple, for at least four vertices."},
 {"property": "C151", "status": "partial", "theorems": ["Geometrix.C151_affine_partial", "Geometrix.C151_rotate_partial", "Geometrix.C151_border_refuted", "Geometrix.C151_containment", "Geometrix.C151_area", "Geometrix.C151_centroid", "Geometrix.C151_rotate_area", "Geometrix.C151_simple", "Geometrix.C151_distance"], "note": "Proved for point_in_polygon off the border (C151_affine_partial, C151_rotate_partial), for polygon_containment everywhere on polygons in which the point is inside at most one side, for is_polygon_simple with at least four vertices, for areas, centroid and the distance from the border. On the border point_in_polygon may change its answer (C151_border_refuted)."},
 {"property": "C152", "status": "partial", "theorems": ["Geometrix.C152_clean", "Geometrix.C152_simplify", "Geometrix.C152_length", "Geometrix.C152_side", "Geometrix.C152_intersection_partial", "Geometrix.C152_degenerate_refuted", "Geometrix.C152_lines", "Geometrix.C152_orientation", "Geometrix.C152_point_segment", "Geometrix.C152_segment_segment", "Geometrix.C152_distances", "Geometrix.C152_closest", "Geometrix.C152_segment_closest"], "note": "proved for exact arithmetic; intersections of segments that are points are excluded, because for them the answer changes with a rotation (C152_degenerate_refuted)"},
 {"property": "C153", "status": "partial", "theorems": ["Geometrix.C153_inside", "Geometrix.C153_area", "Geometrix.C153_simple", "Geometrix.C153_distance_partial", "Geometrix.C153_distance_refuted"], "note": "proved for exact arithmetic for all the functions but polygon_polygon_distance_sqrd of two polygons of six or more vertices, whose result depends on the start vertex (C153_distance_refuted)"},
 {"property": "C154", "status": "partial", "theorems": ["Geometrix.C154_point", "Geometrix.C154_segment", "Geometrix.C154_polyline", "Geometrix.C154_polygon", "Geometrix.C154_box", "Geometrix.C154_boxes", "Geometrix.C154_segments", "Geometrix.C154_segment_chain", "Geometrix.C154_polylines", "Geometrix.C154_polygons_partial", "Geometrix.C154_lipschitz", "Geometrix.C154_zero", "Geometrix.C154_symmetric", "Geometrix.C154_touch"], "note": "Proved for every listed function except polygon_polygon_distance of two polygons with six or more vertices, where the code leaves out the closing edges (C23_closing_edge_refuted)."},
 {"property": "C155", "status": "partial", "theorems": ["Geometrix.C155_inside", "Geometrix.C155_area", "Geometrix.C155_border", "Geometrix.C155_polyline", "Geometrix.C155_polylines", "Geometrix.C155_length", "Geometrix.C155_perimeter", "Geometrix.C155_distance_refuted"], "note": "Proved for all listed functions except polygon_polygon_distance_sqrd, for which the sixth vertex selects an algorithm without the closing sides (C155_distance_refuted)."}
]}

# Laws and axioms per theorem

Generated by `scripts/assume.py`. “Laws”: the type classes in the statement (`–`: holds for every arithmetic, NaN and rounding included; `Rat`, `FQ`: a concrete witness evaluated by the kernel; `ExactScalar` has the instances ℚ and ℝ, `ExactSqrt` ℝ, `ExactAtan2` ℚ and ℝ).

| theorem | laws | axioms |
|---|---|---|
| Shape.C01_divide_always_returns | – | propext, Classical.choice, Quot.sound |
| Shape.C02_divide_invents_no_edge | – | propext, Classical.choice, Quot.sound |
| Shape.C02_self_edges_break_it | – | propext, Classical.choice, Quot.sound |
| Shape.C03_divide_covers_each_edge_once | – | propext, Classical.choice, Quot.sound |
| Shape.C04_divide_splits_at_junctions | – | propext, Classical.choice, Quot.sound |
| Shape.C05_divide_marks_two_way_vertices | – | propext, Classical.choice, Quot.sound |
| Shape.C06_divide_ignores_duplicates | – | propext, Classical.choice, Quot.sound |
| Shape.C06_divide_ignores_odd_index | – | propext, Quot.sound |
| Rdp.C07_rdp2_keeps_ends_and_order | – | propext, Classical.choice, Quot.sound |
| Rdp.C07_rdp3_keeps_ends_and_order | – | propext, Classical.choice, Quot.sound |
| Rdp.C08_rdp2_error_bound | ExactScalar | propext, Classical.choice, Quot.sound |
| Rdp.C09_rdp3_error_bound | ExactScalar | propext, Classical.choice, Quot.sound |
| Rdp.C09_3d_drops_spikes | Rat | propext, Classical.choice, Quot.sound |
| Rdp.C10_rdp2_idempotent | OrderedScalar | propext, Classical.choice, Quot.sound |
| Rdp.C10_rdp3_idempotent | OrderedScalar | propext, Classical.choice, Quot.sound |
| Rdp.C11_indexed2_agrees | – | propext, Classical.choice, Quot.sound |
| Rdp.C11_indexed3_agrees | – | propext, Classical.choice, Quot.sound |
| Rdp.C11_small_table | – | propext, Quot.sound |
| Rdp.C11_excluded_cases | – | propext, Classical.choice, Quot.sound |
| Rdp.C11_small_table3 | – | propext, Quot.sound |
| Rdp.C11_excluded_cases3 | – | propext, Classical.choice, Quot.sound |
| C12_vw2_subsequence | – | propext, Classical.choice, Quot.sound |
| C12_vw2_open_keeps_last | – | propext, Classical.choice, Quot.sound |
| C12_vw2_short | – | propext, Quot.sound |
| C12_nan_area_panics | FQ, Rat | propext, Classical.choice, Quot.sound |
| C13_vw2_open_length | – | propext, Classical.choice, Quot.sound |
| C13_vw2_closed_length | – | propext, Classical.choice, Quot.sound |
| C13_closed_line_is_opened | Rat | propext, Classical.choice, Quot.sound |
| C13_four_points_stay | Rat | propext, Classical.choice, Quot.sound |
| C14_vw2_open_greedy | – | propext, Classical.choice, Quot.sound |
| C14_vw2_closed_greedy | – | propext, Classical.choice, Quot.sound |
| C14_vw3_greedy | – | propext, Classical.choice, Quot.sound |
| C14_area2 | ExactScalar | propext, Classical.choice, Quot.sound |
| C14_area3 | ExactScalar | propext, Quot.sound |
| C15_vw3 | – | propext, Classical.choice, Quot.sound |
| C15_vw3_short | – | propext, Quot.sound |
| C15_last_point_is_lost | Rat | propext, Classical.choice, Quot.sound |
| Dist.C16_dist2_is_min | ExactScalar | propext, Classical.choice, Quot.sound |
| Dist.C16_dist2_safe_is_min | ExactScalar | propext, Classical.choice, Quot.sound |
| Dist.C16_safe_agrees | ExactScalar | propext, Quot.sound |
| Dist.C16_dist2_symm | ExactScalar | propext, Classical.choice, Quot.sound |
| Dist.C17_dist3_is_min | ExactScalar | propext, Classical.choice, Quot.sound |
| Dist.C17_dist3_safe_is_min | ExactScalar | propext, Classical.choice, Quot.sound |
| Dist.C17_3d_is_not_segment_distance | Rat | propext, Classical.choice, Quot.sound |
| Intersect.C18_point_is_common | ExactScalar, ExactSqrt | propext, Classical.choice, Quot.sound |
| Intersect.C18_overlap_is_common | ExactScalar, ExactSqrt | propext, Classical.choice, Quot.sound |
| Intersect.C19_none_iff_disjoint | ExactScalar, ExactSqrt | propext, Classical.choice, Quot.sound |
| Intersect.C19_point_is_unique | ExactScalar, ExactSqrt | propext, Classical.choice, Quot.sound |
| Intersect.C19_overlap_is_exact | ExactScalar, ExactSqrt | propext, Classical.choice, Quot.sound |
| Intersect.C20_same_result | ExactScalar, ExactSqrt | propext, Classical.choice, Quot.sound |
| Intersect.C20_symmetric | ExactScalar, ExactSqrt | propext, Classical.choice, Quot.sound |
| Intersect.C20_symmetric_isSome | ExactScalar, ExactSqrt | propext, Classical.choice, Quot.sound |
| Intersect.C20_reverse | ExactScalar, ExactSqrt | propext, Classical.choice, Quot.sound |
| Intersect.C21_intersection_is_first | – | propext |
| Intersect.C21_find_all_is_filter | – | propext |
| Intersect.C21_intersection_none_iff | ExactScalar, ExactSqrt | propext, Classical.choice, Quot.sound |
| Intersect.C21_intersection_sound | ExactScalar, ExactSqrt | propext, Classical.choice, Quot.sound |
| Intersect.C21_find_all_denotes | ExactScalar, ExactSqrt | propext, Classical.choice, Quot.sound |
| Intersect.C21_find_two | ExactScalar, ExactSqrt | propext, Classical.choice, Quot.sound |
| Intersect.C22_nearest_visible_hit | ExactScalar | propext, Classical.choice, Quot.sound |
| Intersect.C22_closest_ray_hit | ExactScalar | propext, Classical.choice, Quot.sound |
| Intersect.C22_none | ExactScalar | propext, Classical.choice, Quot.sound |
| Intersect.C22_collinear_edge_behind_origin_is_invisible | Rat | propext, Classical.choice, Quot.sound |
| Intersect.C23_closest_overlap | ExactScalar | propext, Quot.sound |
| Intersect.C23_single | – | none |
| Intersect.C24_exact | ExactScalar, ExactSqrt | propext, Classical.choice, Quot.sound |
| Intersect.C24_short_lines_answer | – | propext |
| Intersect.C24_detects_crossings | ExactScalar, ExactSqrt | propext, Classical.choice, Quot.sound |
| Intersect.C24_true_has_reason | ExactScalar, ExactSqrt | propext, Classical.choice, Quot.sound |
| Intersect.C24_three_point_test | ExactScalar | propext, Classical.choice, Quot.sound |
| Intersect.C24_misses_overlaps | Rat | propext, Classical.choice, Quot.sound |
| Intersect.C24_straight_line_reported | Rat | propext, Classical.choice, Quot.sound |
| Intersect.C24_corner_reported | Rat | propext, Classical.choice, Quot.sound |
| Intersect.C25_window_iter | – | propext, Classical.choice, Quot.sound |
| Intersect.C25_window_iter_state | – | propext, Quot.sound |
| Intersect.C25_chunk_iter | – | propext, Classical.choice, Quot.sound |
| Intersect.C25_chunk_iter_state | – | propext, Quot.sound |
| C25_exact_len | – | propext, Quot.sound |
| C25_take_len_panics | – | propext |
| C25_size_hints_are_sound | – | propext, Quot.sound |
| C25_window_segments2 | – | propext, Classical.choice, Quot.sound |
| C25_window_segments3 | – | propext, Classical.choice, Quot.sound |
| C25_chunk_segments2 | – | propext, Classical.choice, Quot.sound |
| C25_chunk_segments3 | – | propext, Classical.choice, Quot.sound |
| Discretize.C26_always_ends | – | propext, Classical.choice, Quot.sound |
| Discretize.C26_keeps_points2 | ExactScalar, ExactSqrt | propext, Classical.choice, Quot.sound |
| Discretize.C26_keeps_points3 | ExactScalar, ExactSqrt | propext, Classical.choice, Quot.sound |
| Discretize.C26_infinite_distance_drops_points | FQ, Rat | propext, Classical.choice, Quot.sound |
| Discretize.C27_divided2 | ExactScalar, ExactSqrt | propext, Classical.choice, Quot.sound |
| Discretize.C27_divided3 | ExactScalar, ExactSqrt | propext, Classical.choice, Quot.sound |
| Discretize.C27_step_length2 | ExactScalar, ExactSqrt | propext, Classical.choice, Quot.sound |
| Discretize.C27_step_length3 | ExactScalar, ExactSqrt | propext, Classical.choice, Quot.sound |
| Discretize.C27_on_line2 | ExactScalar, ExactSqrt | propext, Classical.choice, Quot.sound |
| Discretize.C27_on_line3 | ExactScalar, ExactSqrt | propext, Classical.choice, Quot.sound |
| Aabb.C28_copy_roundtrip | – | propext, Quot.sound |
| Aabb.C28_orthogonal_zero | – | propext, Quot.sound |
| Aabb.C28_copy_roundtrip_3d | – | propext, Quot.sound |
| Aabb.C28_mixed_yz_swaps | – | none |
| Aabb.C29_get_plane | ExactScalar | propext, Classical.choice, Quot.sound |
| Aabb.C29_points_in_plane | ExactScalar | propext, Classical.choice, Quot.sound |
| Aabb.C29_relaxed | ExactScalar | propext, Quot.sound |
| Aabb.C29_empty | – | propext |
| Aabb.C30_box2_is_bounding_box | OrderedScalar | propext, Classical.choice, Quot.sound |
| Aabb.C30_box3_is_bounding_box | OrderedScalar | propext, Classical.choice, Quot.sound |
| Aabb.C30_box2_contains_fed | OrderedScalar | propext, Classical.choice, Quot.sound |
| Aabb.C30_box3_contains_fed | OrderedScalar | propext, Classical.choice, Quot.sound |
| Aabb.C30_box2_minimal | OrderedScalar | propext, Classical.choice, Quot.sound |
| Aabb.C30_box3_minimal | OrderedScalar | propext, Classical.choice, Quot.sound |
| Aabb.C30_box_exists_iff | OrderedScalar | propext, Classical.choice, Quot.sound |
| Aabb.C31_box2_order_independent | OrderedScalar | propext, Classical.choice, Quot.sound |
| Aabb.C31_box3_order_independent | OrderedScalar | propext, Classical.choice, Quot.sound |
| Aabb.C32_contains_point2 | ExactScalar | propext, Classical.choice, Quot.sound |
| Aabb.C32_contains_point3 | ExactScalar | propext, Classical.choice, Quot.sound |
| Aabb.C32_contains_line2 | ExactScalar | propext, Classical.choice, Quot.sound |
| Aabb.C32_contains_line3 | ExactScalar | propext, Classical.choice, Quot.sound |
| Aabb.C32_contains_aabb2 | ExactScalar | propext, Classical.choice, Quot.sound |
| Aabb.C32_contains_aabb3 | ExactScalar | propext, Classical.choice, Quot.sound |
| Aabb.C32_empty_box | ExactScalar | propext, Quot.sound |
| Aabb.C32_transitive | ExactScalar | propext, Classical.choice, Quot.sound |
| Aabb.C33_convex_hull | ExactScalar | propext, Classical.choice, Quot.sound |
| Aabb.C33_from_aabb | – | none |
| Aabb.C34_new_fails_iff | ExactScalar | propext, Quot.sound |
| Aabb.C34_inverse | ExactScalar | propext, Classical.choice, Quot.sound |
| Aabb.C34_array_versions | – | propext |
| Aabb.C35_scale_uniform | ExactScalar | propext, Classical.choice, Quot.sound |
| Aabb.C35_center | ExactScalar | propext, Classical.choice, Quot.sound |
| Aabb.C35_maps_into | ExactScalar | propext, Classical.choice, Quot.sound |
| Aabb.C35_small_destination_exceeded | Rat | propext, Classical.choice, Quot.sound |
| C36_graham_scan_is_hull | ExactScalar, ExactAtan2 | propext, Classical.choice, Quot.sound |
| C36_short_inputs | – | propext |
| C36_any_arithmetic | – | propext, Classical.choice, Quot.sound |
| C36_short_inputs_all | ExactScalar | propext, Quot.sound |
| C36_equal_points | ExactScalar | propext, Classical.choice, Quot.sound |
| C37_sort_exists | ExactScalar | propext, Classical.choice, Quot.sound |
| C37_graham_scan_wo_atan2_is_hull | ExactScalar | propext, Classical.choice, Quot.sound |
| C37_any_arithmetic | – | propext, Classical.choice, Quot.sound |
| C38_gift_wrap_terminates | – | propext, Classical.choice, Quot.sound |
| C38_gift_wrap_is_hull | ExactScalar | propext, Classical.choice, Quot.sound |
| C38_duplicates_lose_points | Rat | propext, Classical.choice, Quot.sound |
| C39_indexed_graham_members | – | propext, Classical.choice, Quot.sound |
| C39_indexed_gift_members | – | propext, Classical.choice, Quot.sound |
| C39_par_members | – | propext, Classical.choice, Quot.sound |
| C39_line_par_members | – | propext, Quot.sound |
| C39_merge_walk | – | propext, Quot.sound |
| C40_short_inputs | ExactScalar | propext, Classical.choice, Quot.sound |
| C40_indexed_graham_scan_is_hull | ExactScalar, ExactAtan2 | propext, Classical.choice, Quot.sound |
| C40_indexed_gift_wrap_is_hull | ExactScalar | propext, Classical.choice, Quot.sound |
| C40_duplicate_start_loses_points | Rat | propext, Classical.choice, Quot.sound |
| C40_any_arithmetic | – | propext, Classical.choice, Quot.sound |
| C41_one_chunk_is_hull | ExactScalar, ExactAtan2 | propext, Classical.choice, Quot.sound |
| C41_two_chunks_one_task_lose_points | Rat | propext, Classical.choice, Quot.sound |
| C41_result_depends_on_schedule | Rat | propext, Classical.choice, Quot.sound |
| C41_two_chunks_two_tasks_not_convex | Rat | propext, Classical.choice, Quot.sound |
| C41_two_chunks_diverge | Rat | propext, Classical.choice, Quot.sound |
| C41_short_inputs | – | propext, Quot.sound |
| C42_inclusive_iff_left_of_every_edge | ExactScalar | propext, Classical.choice, Quot.sound |
| C42_left_of_every_edge_iff_convex_combination | ExactScalar | propext, Classical.choice, Quot.sound |
| C42_inclusive_open_hull | ExactScalar | propext, Classical.choice, Quot.sound |
| C42_line_inclusive | ExactScalar | propext, Quot.sound |
| C42_line_open_false | ExactScalar | propext, Quot.sound |
| C42_doubled_point_contains_everything | ExactScalar | propext, Classical.choice, Quot.sound |
| C42_flat_hull_contains_the_line | ExactScalar | propext, Classical.choice, Quot.sound |
| C42_any_arithmetic | – | propext, Classical.choice, Quot.sound |
| C42_single_point | OrderedScalar | propext |
| C43_exclusive_sound | ExactScalar | propext, Classical.choice, Quot.sound |
| C43_exclusive_complete | ExactScalar | propext, Classical.choice, Quot.sound |
| C43_line_exclusive | ExactScalar | propext, Quot.sound |
| C43_exclusive_rejects_interior_points | Rat | propext, Classical.choice, Quot.sound |
| C43_exclusive_iff | ExactScalar | propext, Classical.choice, Quot.sound |
| C43_exclusive_open_hull | ExactScalar | propext, Classical.choice, Quot.sound |
| C44_contains_hull_iff | ExactScalar | propext, Classical.choice, Quot.sound |
| C44_hull_contains_its_points | ExactScalar | propext, Classical.choice, Quot.sound |
| C44_small_containers | – | propext, Quot.sound |
| C44_degenerate_containers | ExactScalar | propext, Classical.choice, Quot.sound |
| C44_any_arithmetic | – | propext, Classical.choice, Quot.sound |
| C44_differ_on_non_convex_containers | Rat | propext, Classical.choice, Quot.sound |
| C45_error_iff_not_finite | – | propext, Classical.choice, Quot.sound |
| C45_accepts_and_records | – | propext, Classical.choice, Quot.sound |
| C45_indexed | – | propext, Classical.choice, Quot.sound |
| C45_second_call_restarts_the_index | FQ, Rat | propext, Classical.choice, Quot.sound |
| C46_reported_points_are_common | ExactScalar, ExactSqrt | propext, Classical.choice, Quot.sound |
| C46_indexed_reported_points_are_common | ExactScalar, ExactSqrt | propext, Classical.choice, Quot.sound |
| C47_positions_increase | ExactScalar, ExactSqrt | propext, Classical.choice, Quot.sound |
| C47_indexed_positions_increase | ExactScalar, ExactSqrt | propext, Classical.choice, Quot.sound |
| C48_terminates | ExactScalar, ExactSqrt | propext, Classical.choice, Quot.sound |
| C48_indexed_terminates | ExactScalar, ExactSqrt | propext, Classical.choice, Quot.sound |
| C49_vertices_preserved | ExactScalar, ExactSqrt | propext, Classical.choice, Quot.sound |
| C50_end_points_2d | – | propext, Classical.choice, Quot.sound |
| C50_end_points_3d | – | propext, Classical.choice, Quot.sound |
| C50_straight_line | – | none |
| C50_straight_line_heights | ExactScalar, ExactSqrt | propext, Classical.choice, Quot.sound |
| C51_equidistant | ExactScalar | propext, Classical.choice, Quot.sound |
| C51_equidistant_3d | ExactScalar, ExactSqrt | propext, Classical.choice, Quot.sound |
| C51_terminates | ExactScalar, Archimedean | propext, Classical.choice, Quot.sound |
| C51_terminates_3d | ExactScalar, Archimedean | propext, Classical.choice, Quot.sound |
| C51_same_projection_diverges | FQ, Rat | propext, Classical.choice, Quot.sound |
| C52_file | – | propext, Classical.choice, Quot.sound |
| C52_fault | – | propext, Classical.choice, Quot.sound |
| C52_text_can_be_read_back | – | propext, Classical.choice, Quot.sound |
| C52_saved_text_is_well_formed | – | propext, Classical.choice, Quot.sound |
| Intersect.C53_approx_exact | – | propext |
| Intersect.C53_approx_undirected | – | propext, Classical.choice, Quot.sound |
| Intersect.C53_approx_refl | – | propext |
| Intersect.C53_approx_reversed | – | propext |
| Intersect.C53_tolerance_depends_on_direction | – | none |
| Intersect.C53_line_equality | – | propext |
| Intersect.C53_line_equality_exact | ExactScalar | propext, Quot.sound |
| Intersect.C53_approx_vec | – | propext, Quot.sound |
| Rdp.C54_rdp2_is_textbook | ExactScalar | propext, Classical.choice, Quot.sound |
| Rdp.C54_rdp3_is_textbook | ExactScalar | propext, Classical.choice, Quot.sound |
| C55_monotone | ExactScalar, Archimedean | propext, Classical.choice, Quot.sound |
| C55_accuracy | ExactScalar, Archimedean | propext, Classical.choice, Quot.sound |
| C55_distance_to_polyline_not_bounded | Rat | propext, Classical.choice, Quot.sound |
| C56_shared_end_points_are_reported | ExactScalar, ExactSqrt | propext, Classical.choice, Quot.sound |
| C56_indexed_shared_end_points_are_reported | ExactScalar, ExactSqrt | propext, Classical.choice, Quot.sound |
| C57_at_least_two_lines | ExactScalar, ExactSqrt | propext, Classical.choice, Quot.sound |
| C57_zero_length_line_meets_itself | FQ, Rat | propext, Classical.choice, Quot.sound |
| C57_indexed_at_least_two_lines | ExactScalar, ExactSqrt | propext, Classical.choice, Quot.sound |
| C58_default_configuration | – | propext |
| C58_ignoring_end_points | ExactScalar, ExactSqrt | propext, Classical.choice, Quot.sound |
| C58_stops_at_the_first | ExactScalar, ExactSqrt | propext, Classical.choice, Quot.sound |
| C58_self_intersecting_is_true | ExactScalar, ExactSqrt | propext, Classical.choice, Quot.sound |
| C58_indexed_ignoring_end_points | ExactScalar, ExactSqrt | propext, Classical.choice, Quot.sound |
| C58_indexed_stops_at_the_first | ExactScalar, ExactSqrt | propext, Classical.choice, Quot.sound |
| C59_start_point_on_a_line_is_missed | FQ, Rat | propext, Classical.choice, Quot.sound |
| C59_crossing_is_missed | FQ, Rat | propext, Classical.choice, Quot.sound |
| C59_reports_exactly_the_common_points | ExactScalar, ExactSqrt | propext, Classical.choice, Quot.sound |
| C59_ignoring_end_points_reports_exactly_the_crossings | ExactScalar, ExactSqrt | propext, Classical.choice, Quot.sound |
| C59_ignoring_end_points_reports_the_points_inside_a_line | ExactScalar, ExactSqrt | propext, Classical.choice, Quot.sound |
| C59_stop_at_first_finds_a_touch | ExactScalar, ExactSqrt | propext, Classical.choice, Quot.sound |
| C59_stop_at_first_finds_a_crossing | ExactScalar, ExactSqrt | propext, Classical.choice, Quot.sound |
| C59_self_intersecting_iff | ExactScalar, ExactSqrt | propext, Classical.choice, Quot.sound |
| C59_self_intersecting_iff_touch | ExactScalar, ExactSqrt | propext, Classical.choice, Quot.sound |
| C59_indexed_reports_exactly_the_common_points | ExactScalar, ExactSqrt | propext, Classical.choice, Quot.sound |
| C59_shared_vertex_at_the_height_of_an_event | FQ, Rat | propext, Classical.choice, Quot.sound |
| C59_indexed_ignoring_end_points | ExactScalar, ExactSqrt | propext, Classical.choice, Quot.sound |
| C59_indexed_stop_at_first_finds_a_touch | ExactScalar, ExactSqrt | propext, Classical.choice, Quot.sound |
| C59_touching_example | Real | propext, Classical.choice, Quot.sound |
| C60_line_direction | – | propext, Quot.sound |
| C60_edge_direction | ExactScalar, ExactSqrt | propext, Classical.choice, Quot.sound |
| C60_direction_of_overlapping_edges | FQ, Rat | propext, Classical.choice, Quot.sound |
| C60_independent_of_hash_order | ExactScalar, ExactSqrt | propext, Classical.choice, Quot.sound |
| C60_self_intersecting_independent | ExactScalar, ExactSqrt | propext, Classical.choice, Quot.sound |
| C60_indexed_independent_of_hash_order | ExactScalar, ExactSqrt | propext, Classical.choice, Quot.sound |
| C60_plain_and_indexed_agree | ExactScalar, ExactSqrt | propext, Classical.choice, Quot.sound |
| C61_first_of_the_full_result | ExactScalar, ExactSqrt | propext, Classical.choice, Quot.sound |
| C61_indexed_first_of_the_full_result | ExactScalar, ExactSqrt | propext, Classical.choice, Quot.sound |
| C62_hull_is_unique | ExactScalar | propext, Classical.choice, Quot.sound |
| C62_graham_scan_depends_on_the_set_only | ExactScalar, ExactAtan2 | propext, Classical.choice, Quot.sound |
| C62_graham_scans_agree | ExactScalar, ExactAtan2 | propext, Classical.choice, Quot.sound |
| C62_gift_wrap_agrees | ExactScalar, ExactAtan2 | propext, Classical.choice, Quot.sound |
| C62_indexed_agree | ExactScalar, ExactAtan2 | propext, Classical.choice, Quot.sound |
| C62_hull_of_hull | ExactScalar, ExactAtan2 | propext, Classical.choice, Quot.sound |
| C62_hull_of_a_triangle_is_open | Rat | propext, Classical.choice, Quot.sound |
| C63_points_are_combinations_of_the_vertices | ExactScalar | propext, Classical.choice, Quot.sound |
| C63_same_bounding_box | ExactScalar | propext, Classical.choice, Quot.sound |
| C63_graham_scan_keeps_the_bounding_box | ExactScalar, ExactAtan2 | propext, Classical.choice, Quot.sound |
| C63_spans_the_convex_hull | Real | propext, Classical.choice, Quot.sound |
| C63_graham_scan_spans_the_convex_hull | Real | propext, Classical.choice, Quot.sound |
| C64_several_chunks_is_hull | ExactScalar, ExactAtan2 | propext, Classical.choice, Quot.sound |
| C64_line_several_chunks_is_hull | ExactScalar, ExactAtan2 | propext, Classical.choice, Quot.sound |
| Aabb.C65_center_inside3 | ExactScalar | propext, Classical.choice, Quot.sound |
| Aabb.C65_accessors2 | ExactScalar | propext, Classical.choice, Quot.sound |
| Aabb.C65_accessors3 | ExactScalar | propext, Classical.choice, Quot.sound |
| Aabb.C65_center_inside | ExactScalar | propext, Classical.choice, Quot.sound |
| Aabb.C65_equality | ExactScalar | propext, Classical.choice, Quot.sound |
| Aabb.C66_apply2 | OrderedScalar | propext, Classical.choice, Quot.sound |
| Aabb.C66_apply3 | OrderedScalar | propext, Classical.choice, Quot.sound |
| Aabb.C66_unordered_corners_contain_nothing | ExactScalar | propext, Classical.choice, Quot.sound |
| Aabb.C66_from_corners | ExactScalar | propext, Classical.choice, Quot.sound |
| Similar.C67_apply | – | propext, Quot.sound |
| Similar.C67_rdp2_commutes_with_similarities | ExactScalar | propext, Classical.choice, Quot.sound |
| Similar.C67_rdp3_commutes_with_similarities | ExactScalar | propext, Classical.choice, Quot.sound |
| Similar.C67_affine_is_similarity | ExactScalar | propext, Classical.choice, Quot.sound |
| Similar.C67_vw2_commutes_with_similarities | ExactScalar | propext, Classical.choice, Quot.sound |
| Similar.C67_vw3_commutes_with_similarities | ExactScalar | propext, Classical.choice, Quot.sound |
| Misc.C68_cross | ExactScalar | propext, Quot.sound |
| Misc.C68_orientation | ExactScalar | propext, Classical.choice, Quot.sound |
| Misc.C68_orientation_symmetry | ExactScalar | propext, Classical.choice, Quot.sound |
| Misc.C69_scale_to_coordinate | ExactScalar | propext, Quot.sound |
| Misc.C69_point_on_line | ExactScalar, ExactSqrt | propext, Classical.choice, Quot.sound |
| Misc.C70_is_connected | – | propext, Quot.sound |
| Misc.C70_point_count | OrderedScalar | propext, Quot.sound |
| C70_line_apply | – | propext, Classical.choice, Quot.sound |
| C70_line_from_array | – | none |
| C71_orientation_is_exact | Rat | propext, Classical.choice, Quot.sound |
| C71_tiny_points_are_collinear | – | propext, Classical.choice, Quot.sound |
| C71_hull_of_a_tiny_square | – | propext, Classical.choice, Quot.sound |
| C71_tiny_square_contains_points_outside | – | propext, Classical.choice, Quot.sound |
| C71_hull_of_a_huge_square | – | propext, Classical.choice, Quot.sound |
| C71_huge_square_loses_its_centre | – | propext, Classical.choice, Quot.sound |
| C72_gift_wrap_on_floats | Rat | propext, Classical.choice, Quot.sound |
| C72_indexed_gift_wrap_on_floats | Rat | propext, Classical.choice, Quot.sound |
| C73_sort_exists | – | propext, Classical.choice, Quot.sound |
| C73_graham_scan_wo_atan2_on_floats | Rat | propext, Classical.choice, Quot.sound |
| C74_graham_scan_on_floats | Rat | propext, Classical.choice, Quot.sound |
| C74_accurate_atan2_is_good | – | propext, Classical.choice, Quot.sound |
| C74_good_atan2_exists | – | propext, Classical.choice, Quot.sound |
| C74_sort_exists | – | propext, Classical.choice, Quot.sound |
| C75_exclusive_iff_on_floats | Rat | propext, Classical.choice, Quot.sound |
| C75_contains_inclusive_on_floats | Rat | propext, Classical.choice, Quot.sound |
| C75_contains_exclusive_on_floats | Rat | propext, Classical.choice, Quot.sound |
| C75_contains_convex_hull_on_floats | Rat | propext, Classical.choice, Quot.sound |
| C76_box2_on_floats | – | propext, Classical.choice, Quot.sound |
| C76_box2_contains_fed_on_floats | – | propext, Classical.choice, Quot.sound |
| C76_box2_order_independent_on_floats | Rat | propext, Classical.choice, Quot.sound |
| C76_box3_on_floats | – | propext, Classical.choice, Quot.sound |
| C76_with_points3_on_floats | – | propext, Classical.choice, Quot.sound |
| C76_nan_poisons_box3 | – | propext, Classical.choice, Quot.sound |
| C76_center2_on_floats | Rat | propext, Classical.choice, Quot.sound |
| C76_center3_on_floats | Rat | propext, Classical.choice, Quot.sound |
| C76_center_overflow | – | propext, Classical.choice, Quot.sound |
| C77_intersection_on_floats | Rat, Real | propext, Classical.choice, Quot.sound |
| C77_exact_at_the_ends | Rat, Real | propext, Classical.choice, Quot.sound |
| C77_reported_iff_common_point | Rat, Real | propext, Classical.choice, Quot.sound |
| C77_symmetric | Rat | propext, Classical.choice, Quot.sound |
| C77_not_exact_at_the_other_ends | Rat | propext, Classical.choice, Quot.sound |
| C78_accepts_points_on_the_segment | Real | propext, Classical.choice, Quot.sound |
| C78_accepted_points_are_near | Real | propext, Classical.choice, Quot.sound |
| C78_point_on_point | Rat | propext, Classical.choice, Quot.sound |
| C78_exact_on_small_grids | Real | propext, Classical.choice, Quot.sound |
| C78_any_segments_on_small_grids | Real | propext, Classical.choice, Quot.sound |
| C78_false_positive | Real | propext, Classical.choice, Quot.sound |
| C79_an_internal_error_is_possible | – | propext, Classical.choice, Quot.sound |
| C79_sweep_on_any_floats | – | propext, Classical.choice, Quot.sound |
| C79_sweep_stops_on_any_floats | – | propext, Classical.choice, Quot.sound |
| C79_small_trees_are_dependable | – | propext, Classical.choice, Quot.sound |
| C79_separate_points_are_dependable | Rat | propext, Classical.choice, Quot.sound |
| C79_indexed_sweep_on_any_floats | – | propext, Classical.choice, Quot.sound |
| C79_indexed_sweep_stops_on_any_floats | – | propext, Classical.choice, Quot.sound |
| C79_sweep_on_a_grid | Real | propext, Classical.choice, Quot.sound |
| C79_sweep_stops_on_a_grid | Real | propext, Classical.choice, Quot.sound |
| C79_indexed_sweep_on_a_grid | Real | propext, Classical.choice, Quot.sound |
| C79_indexed_sweep_stops_on_a_grid | Real | propext, Classical.choice, Quot.sound |
| C79_self_intersecting_on_any_floats | – | propext, Classical.choice, Quot.sound |
| C79_self_intersecting_stops_on_any_floats | – | propext, Classical.choice, Quot.sound |
| C79_self_intersecting_on_a_grid | Real | propext, Classical.choice, Quot.sound |
| C79_self_intersecting_stops_on_a_grid | Real | propext, Classical.choice, Quot.sound |
| C79_finite_lines_may_be_refused | – | propext, Classical.choice, Quot.sound |
| C80_rdp2_is_textbook | Rat | propext, Classical.choice, Quot.sound |
| C80_rdp2_error_bound | Rat | propext, Classical.choice, Quot.sound |
| C80_rdp2_idempotent | – | propext, Classical.choice, Quot.sound |
| C80_rdp3_is_textbook | Rat | propext, Classical.choice, Quot.sound |
| C80_rdp3_error_bound | Rat | propext, Classical.choice, Quot.sound |
| C80_rdp3_idempotent | – | propext, Classical.choice, Quot.sound |
| C80_underflow_exceeds_tolerance | Rat | propext, Classical.choice, Quot.sound |
| C81_floats_total | – | propext, Classical.choice, Quot.sound |
| C81_vw2_subsequence | – | propext, Classical.choice, Quot.sound |
| C81_vw2_open | Rat | propext, Classical.choice, Quot.sound |
| C81_vw2_closed | Rat | propext, Classical.choice, Quot.sound |
| C81_vw3 | – | propext, Classical.choice, Quot.sound |
| C81_heap_exists | – | propext, Classical.choice, Quot.sound |
| C81_vw2_open_greedy | Rat | propext, Classical.choice, Quot.sound |
| C81_vw2_closed_greedy | Rat | propext, Classical.choice, Quot.sound |
| C81_vw3_greedy | Rat | propext, Classical.choice, Quot.sound |
| C81_large_coordinates_panic | Rat | propext, Classical.choice, Quot.sound |
| C81_small_coordinates_lose_area | Rat | propext, Classical.choice, Quot.sound |
| C82_intersection_none_iff | Real | propext, Classical.choice, Quot.sound |
| C82_intersection_is_first | Real | propext, Classical.choice, Quot.sound |
| C82_find_all | Real | propext, Classical.choice, Quot.sound |
| C82_find_two | Real, Rat | propext, Classical.choice, Quot.sound |
| C82_two_reports_for_one_point | Rat | propext, Classical.choice, Quot.sound |
| C82_one_exact_point | Rat | propext, Classical.choice, Quot.sound |
| C83_three_point_test | – | propext, Classical.choice, Quot.sound |
| C83_detects_crossings | Real | propext, Classical.choice, Quot.sound |
| C83_true_has_reason | Real | propext, Classical.choice, Quot.sound |
| C83_same_as_real | Rat, Real | propext, Classical.choice, Quot.sound |
| C83_grid64 | – | propext, Classical.choice, Quot.sound |
| C83_crossing64 | – | propext, Classical.choice, Quot.sound |
| C83_simple64 | – | propext, Classical.choice, Quot.sound |
| C83_negative_zero | – | propext, Classical.choice, Quot.sound |
| C84_divided2 | Real, Rat | propext, Classical.choice, Quot.sound |
| C84_divided3 | Real, Rat | propext, Classical.choice, Quot.sound |
| C84_keeps_points2 | Rat | propext, Classical.choice, Quot.sound |
| C84_keeps_points3 | Rat | propext, Classical.choice, Quot.sound |
| C84_step_length2 | Real | propext, Classical.choice, Quot.sound |
| C84_step_length3 | Real | propext, Classical.choice, Quot.sound |
| C84_bad_distance2 | Rat | propext, Classical.choice, Quot.sound |
| C84_bad_distance3 | Rat | propext, Classical.choice, Quot.sound |
| C84_zero_distance2 | Rat | propext, Classical.choice, Quot.sound |
| C84_huge_coordinates2 | Rat | propext, Classical.choice, Quot.sound |
| C84_count_is_rounded | Rat | propext, Classical.choice, Quot.sound |
| C84_underflow_drops_points | – | propext, Classical.choice, Quot.sound |
| C85_indexed_graham_scan_on_floats | Rat | propext, Classical.choice, Quot.sound |
| C85_one_chunk_on_floats | Rat | propext, Classical.choice, Quot.sound |
| C85_several_chunks_on_floats | Rat | propext, Classical.choice, Quot.sound |
| C85_line_several_chunks_on_floats | Rat | propext, Classical.choice, Quot.sound |
| C86_distance2_safe | Rat | propext, Classical.choice, Quot.sound |
| C86_distance2 | Rat | propext, Classical.choice, Quot.sound |
| C86_distance3_safe | Rat | propext, Classical.choice, Quot.sound |
| C86_never_negative | – | propext, Classical.choice, Quot.sound |
| C86_equal_ends_nan | Rat | propext, Classical.choice, Quot.sound |
| C87_image_is_the_exact_transform | Rat | propext, Classical.choice, Quot.sound |
| C87_transform_ab | Rat | propext, Classical.choice, Quot.sound |
| C87_transform_ba | Rat | propext, Classical.choice, Quot.sound |
| C87_stays_in_the_destination | Rat | propext, Classical.choice, Quot.sound |
| C87_round_trip | Rat | propext, Classical.choice, Quot.sound |
| C87_results_are_finite | – | propext, Classical.choice, Quot.sound |
| C87_corner_leaves_the_destination | Rat | propext, Classical.choice, Quot.sound |
| C87_corner_does_not_come_back | Rat | propext, Classical.choice, Quot.sound |
| C87_huge_box_collapses | – | propext, Classical.choice, Quot.sound |
| C88_nan_tolerance_never_ends | – | propext, Classical.choice, Quot.sound |
| C88_equal_ends_never_end | – | propext, Classical.choice, Quot.sound |
| C88_point_segment_never_ends | – | propext, Classical.choice, Quot.sound |
| C88_cell_at_start_never_ends | – | propext, Classical.choice, Quot.sound |
| C88_cell_on_line_never_ends | Rat | propext, Classical.choice, Quot.sound |
| C88_same_foot_never_ends | Rat | propext, Classical.choice, Quot.sound |
| C88_small_tolerance_never_ends | – | propext, Classical.choice, Quot.sound |
| C88_points_near_the_parabola_2d | Rat | propext, Classical.choice, Quot.sound |
| C88_points_near_the_parabola_3d | Rat | propext, Classical.choice, Quot.sound |
| C89_nearest_hit_on_floats | Rat | propext, Classical.choice, Quot.sound |
| C89_none_on_floats | Rat | propext, Classical.choice, Quot.sound |
| C89_zero_direction | – | propext, Classical.choice, Quot.sound |
| C89_a_ray_slips_through_a_vertex | Rat | propext, Classical.choice, Quot.sound |
| C90_vw2_nested | – | propext, Classical.choice, Quot.sound |
| C90_vw3_nested | – | propext, Classical.choice, Quot.sound |
| C90_rdp2_stages | ExactScalar | propext, Classical.choice, Quot.sound |
| C90_rdp3_stages | ExactScalar | propext, Classical.choice, Quot.sound |
| C90_indexed_nested | ExactScalar | propext, Classical.choice, Quot.sound |
| C90_rdp_nested_on_floats | – | propext, Classical.choice, Quot.sound |
| C90_rdp2_stages_on_floats | – | propext, Classical.choice, Quot.sound |
| C90_rdp3_stages_on_floats | – | propext, Classical.choice, Quot.sound |
| C90_nan_tolerance | – | propext, Classical.choice, Quot.sound |
| C90_nan_point_hides_others | Rat | propext, Classical.choice, Quot.sound |
| C91_shared_end_points_on_a_grid | Rat | propext, Classical.choice, Quot.sound |
| C91_indexed_shared_end_points_on_a_grid | Rat | propext, Classical.choice, Quot.sound |
| C91_inner_vertices_are_reported | – | propext, Classical.choice, Quot.sound |
| C91_a_common_end_point_may_be_lost | – | propext, Classical.choice, Quot.sound |
| Shape.C92_divide_depends_only_on_the_edges | – | propext, Classical.choice, Quot.sound |
| Shape.C92_no_other_division | – | propext, Classical.choice, Quot.sound |
| Shape.C92_divide_commutes_with_renaming | – | propext, Classical.choice, Quot.sound |
| C93_hull_contains_the_combinations | ExactScalar | propext, Classical.choice, Quot.sound |
| C93_convex_hull_then_contains | ExactScalar, ExactAtan2 | propext, Classical.choice, Quot.sound |
| C93_nested_hulls | ExactScalar | propext, Classical.choice, Quot.sound |
| C93_more_points_larger_hull | ExactScalar | propext, Classical.choice, Quot.sound |
| C93_containment_is_an_order | ExactScalar | propext, Classical.choice, Quot.sound |
| C93_hull_contains_on_floats | Rat | propext, Classical.choice, Quot.sound |
| C93_convex_hull_then_contains_on_floats | Rat | propext, Classical.choice, Quot.sound |
| C93_sort_exists | – | propext, Classical.choice, Quot.sound |
| AffineInv.C94_intersection_point | ExactScalar, ExactSqrt | propext, Classical.choice, Quot.sound |
| AffineInv.C94_line_string_intersections | ExactScalar, ExactSqrt | propext, Classical.choice, Quot.sound |
| AffineInv.C94_closest_ray_intersection | ExactScalar | propext, Classical.choice, Quot.sound |
| AffineInv.C94_contains | ExactScalar | propext, Classical.choice, Quot.sound |
| AffineInv.C94_contains_convex_hull | ExactScalar | propext, Classical.choice, Quot.sound |
| AffineInv.C94_hull_edges | ExactScalar | propext, Classical.choice, Quot.sound |
| AffineInv.C94_convex_hull | ExactScalar, ExactAtan2 | propext, Classical.choice, Quot.sound |
| AffineInv.C94_moved_and_scaled | ExactScalar, ExactAtan2 | propext, Classical.choice, Quot.sound |
| AffineInv.C94_gift_wrap | ExactScalar | propext, Classical.choice, Quot.sound |
| AffineInv.C94_sweep | ExactScalar, ExactSqrt | propext, Classical.choice, Quot.sound |
| AffineInv.C94_sweep_horizontal | ExactScalar, ExactSqrt | propext, Classical.choice, Quot.sound |
| AffineInv.C94_self_intersection_depends_on_coordinates | Rat | propext, Classical.choice, Quot.sound |
| Discretize.C94_discretize2 | ExactScalar, ExactSqrt | propext, Classical.choice, Quot.sound |
| Discretize.C94_discretize3 | ExactScalar, ExactSqrt | propext, Classical.choice, Quot.sound |
| Discretize.C94_discretize_reverse2 | ExactScalar, ExactSqrt | propext, Classical.choice, Quot.sound |
| Discretize.C94_discretize_reverse3 | ExactScalar, ExactSqrt | propext, Classical.choice, Quot.sound |
| C94_sweep_moved_and_scaled | ExactScalar, ExactSqrt | propext, Classical.choice, Quot.sound |
| C94_indexed_sweep_moved_and_scaled | ExactScalar, ExactSqrt | propext, Classical.choice, Quot.sound |
| C94_long_self_intersection | ExactScalar, ExactSqrt | propext, Classical.choice, Quot.sound |
| C94_sweep_example | FQ, Rat | propext, Classical.choice, Quot.sound |
| Length.C95_discretize_box2 | ExactScalar, ExactSqrt | propext, Classical.choice, Quot.sound |
| Length.C95_discretize_box3 | ExactScalar, ExactSqrt | propext, Classical.choice, Quot.sound |
| Length.C95_discretize_fine2 | ExactScalar, ExactSqrt | propext, Classical.choice, Quot.sound |
| Length.C95_discretize_fine3 | ExactScalar, ExactSqrt | propext, Classical.choice, Quot.sound |
| Length.C95_discretize_idempotent | ExactScalar, ExactSqrt | propext, Classical.choice, Quot.sound |
| Length.C95_discretize_length | Real | propext, Classical.choice, Quot.sound |
| Length.C95_discretize_size | Real | propext, Classical.choice, Quot.sound |
| Length.C95_rdp2_length | Real | propext, Classical.choice, Quot.sound |
| Length.C95_rdp3_length | Real | propext, Classical.choice, Quot.sound |
| Length.C95_vw_length | Real | propext, Classical.choice, Quot.sound |
| Length.C95_rdp_box | OrderedScalar | propext, Classical.choice, Quot.sound |
| Length.C95_vw_box | OrderedScalar | propext, Classical.choice, Quot.sound |
| Debug.C96_number_reads_back | – | propext, Classical.choice, Quot.sound |
| Debug.C96_number_has_a_point | – | propext, Classical.choice, Quot.sound |
| Debug.C96_whole_number | Rat | propext, Classical.choice, Quot.sound |
| Debug.C96_not_finite | – | propext, Classical.choice, Quot.sound |
| Debug.C96_line2_reads_back | – | propext, Classical.choice, Quot.sound |
| Debug.C96_line3_reads_back | – | propext, Classical.choice, Quot.sound |
| Debug.C96_aabb2_reads_back | – | propext, Classical.choice, Quot.sound |
| Debug.C96_line2_text_determines | – | propext, Classical.choice, Quot.sound |
| Debug.C96_intersection_text | – | propext, Classical.choice, Quot.sound |
| Debug.C96_vertex_index_text | – | propext, Classical.choice, Quot.sound |
| Debug.C96_site_event_key_text | – | propext, Classical.choice, Quot.sound |
| Debug.C96_texts_exist | – | propext, Classical.choice, Quot.sound |
| Debug.C96_concrete | Rat | propext, Classical.choice, Quot.sound |
| Reverse.C97_indexed_rdp2_reverse | ExactScalar | propext, Classical.choice, Quot.sound |
| Reverse.C97_indexed_rdp3_reverse | ExactScalar | propext, Classical.choice, Quot.sound |
| Reverse.C97_rdp2_reverse | ExactScalar | propext, Classical.choice, Quot.sound |
| Reverse.C97_rdp3_reverse | ExactScalar | propext, Classical.choice, Quot.sound |
| Reverse.C97_rdp_ties | Rat | propext, Classical.choice, Quot.sound |
| Reverse.C97_vw2_any_queue | – | propext, Classical.choice, Quot.sound |
| Reverse.C97_vw3_any_queue | – | propext, Classical.choice, Quot.sound |
| Reverse.C97_vw2_reverse | ExactScalar | propext, Classical.choice, Quot.sound |
| Reverse.C97_rdp_example | Rat | propext, Classical.choice, Quot.sound |
| Reverse.C97_vw_example | Rat | propext, Classical.choice, Quot.sound |
| Reverse.C97_vw3_reverse | ExactScalar | propext, Classical.choice, Quot.sound |
| Reverse.C97_area3_float_symmetric | – | propext, Classical.choice, Quot.sound |
| Reverse.C97_vw3_reverse_float | – | propext, Classical.choice, Quot.sound |
| Reverse.C97_area2_float_not_symmetric | – | propext, Classical.choice, Quot.sound |
| Reverse.C97_vw3_example | Rat | propext, Classical.choice, Quot.sound |
| C98_vertices_in_any_arithmetic | – | propext, Classical.choice, Quot.sound |
| C98_old_index_iff_end_point | ExactScalar, ExactSqrt | propext, Classical.choice, Quot.sound |
| C98_new_vertices_are_common | ExactScalar, ExactSqrt | propext, Classical.choice, Quot.sound |
| C98_new_vertices_are_reported | ExactScalar, ExactSqrt | propext, Classical.choice, Quot.sound |
| C98_unused_vertices | FQ, Rat | propext, Classical.choice, Quot.sound |
| Planar.C99_discretize | ExactScalar | propext, Classical.choice, Quot.sound |
| Planar.C99_simplify_rdp | ExactScalar | propext, Classical.choice, Quot.sound |
| Planar.C99_rdp_differs | Rat | propext, Classical.choice, Quot.sound |
| Planar.C99_simplify_vw | ExactScalar | propext, Classical.choice, Quot.sound |
| Planar.C99_box | ExactScalar | propext, Quot.sound |
| Planar.C99_get_plane | ExactScalar | propext, Classical.choice, Quot.sound |
| Planar.C99_copy_flat | ExactScalar | propext, Classical.choice, Quot.sound |
| Planar.C99_is_connected | ExactScalar | propext, Quot.sound |
| Planar.C99_vw_differs | Rat | propext, Classical.choice, Quot.sound |
| Planar.C99_discretize_floats | – | propext, Classical.choice, Quot.sound |
| Planar.C99_box_floats | – | propext, Classical.choice, Quot.sound |
| C100_any_arithmetic | – | propext, Classical.choice, Quot.sound |
| C100_start_is_first | – | propext, Classical.choice, Quot.sound |
| C100_no_loop_is_hull | ExactScalar, ExactAtan2 | propext, Classical.choice, Quot.sound |
| C100_other_starts | Rat | propext, Classical.choice, Quot.sound |
| Intersect.C101_segments | – | propext, Classical.choice, Quot.sound |
| Intersect.C101_find_all | ExactScalar, ExactSqrt | propext, Classical.choice, Quot.sound |
| Intersect.C101_intersection | ExactScalar, ExactSqrt | propext, Classical.choice, Quot.sound |
| Intersect.C101_closest_ray | ExactScalar | propext, Classical.choice, Quot.sound |
| Intersect.C101_self_intersection | ExactScalar, ExactSqrt | propext, Classical.choice, Quot.sound |
| Intersect.C101_self_intersection_depends_on_direction | Rat | propext, Classical.choice, Quot.sound |
| Intersect.C101_self_intersection_example | Rat | propext, Classical.choice, Quot.sound |
| Intersect.C101_connected_box_hull | ExactScalar, ExactAtan2 | propext, Classical.choice, Quot.sound |
| C102_line_order | ExactScalar, ExactSqrt | propext, Classical.choice, Quot.sound |
| C102_line_order_and_direction | ExactScalar, ExactSqrt | propext, Classical.choice, Quot.sound |
| C102_permuted_lines | ExactScalar, ExactSqrt | propext, Classical.choice, Quot.sound |
| C102_long_line_string_direction | ExactScalar, ExactSqrt | propext, Classical.choice, Quot.sound |
| C102_edge_order | ExactScalar, ExactSqrt | propext, Classical.choice, Quot.sound |
| C102_example | FQ, Rat | propext, Classical.choice, Quot.sound |
| SimplifyCurve.C103_rdp2_curves_are_near | ExactScalar | propext, Classical.choice, Quot.sound |
| SimplifyCurve.C103_rdp3_curves_are_near | ExactScalar | propext, Classical.choice, Quot.sound |
| SimplifyCurve.C103_example | Rat | propext, Classical.choice, Quot.sound |
| SimplifyCurve.C103_rdp2_curves_are_near_float | Rat | propext, Classical.choice, Quot.sound |
| SimplifyCurve.C103_rdp3_curves_are_near_float | Rat | propext, Classical.choice, Quot.sound |
| Shape.C104_simplified_network2 | – | propext, Classical.choice, Quot.sound |
| Shape.C104_simplified_network3 | – | propext, Classical.choice, Quot.sound |
| Shape.C104_network_is_near2 | ExactScalar | propext, Classical.choice, Quot.sound |
| Shape.C104_network_is_near3 | ExactScalar | propext, Classical.choice, Quot.sound |
| Shape.C104_example | Rat | propext, Classical.choice, Quot.sound |
| Shape.C104_network_is_near2_float | Rat | propext, Classical.choice, Quot.sound |
| Shape.C104_network_is_near3_float | Rat | propext, Classical.choice, Quot.sound |
| Reverse.C105_indexed_rdp2_inserted_points | ExactScalar | propext, Classical.choice, Quot.sound |
| Reverse.C105_indexed_rdp3_inserted_points | ExactScalar | propext, Classical.choice, Quot.sound |
| Rdp.C105_rdp2_inserted_points | ExactScalar | propext, Classical.choice, Quot.sound |
| Rdp.C105_rdp3_inserted_points | ExactScalar | propext, Classical.choice, Quot.sound |
| Rdp.C105_rdp2_discretize | ExactScalar, ExactSqrt | propext, Classical.choice, Quot.sound |
| Rdp.C105_rdp3_discretize | ExactScalar, ExactSqrt | propext, Classical.choice, Quot.sound |
| Rdp.C105_example | Rat | propext, Classical.choice, Quot.sound |
| C106_inner_points_do_not_matter | ExactScalar, ExactAtan2 | propext, Classical.choice, Quot.sound |
| C106_corners_suffice | ExactScalar, ExactAtan2 | propext, Classical.choice, Quot.sound |
| C106_union_of_hulls | ExactScalar, ExactAtan2 | propext, Classical.choice, Quot.sound |
| C106_hull_of_discretized | ExactScalar, ExactAtan2, ExactSqrt | propext, Classical.choice, Quot.sound |
| C106_example | Rat | propext, Classical.choice, Quot.sound |
| Parts.C107_segments | – | propext |
| Parts.C107_intersection | – | propext |
| Parts.C107_find_all | – | propext, Quot.sound |
| Parts.C107_discretize | – | propext, Classical.choice, Quot.sound |
| Parts.C107_self_intersection | – | propext, Classical.choice, Quot.sound |
| Parts.C107_closest_ray | ExactScalar | propext, Classical.choice, Quot.sound |
| Parts.C107_box | ExactScalar | propext, Classical.choice, Quot.sound |
| Parts.C107_rdp2 | ExactScalar | propext, Classical.choice, Quot.sound |
| Parts.C107_rdp3 | ExactScalar | propext, Classical.choice, Quot.sound |
| Parts.C107_a_cut_is_visible | Rat | propext, Classical.choice, Quot.sound |
| ClosedStart.C108_segments | – | propext, Classical.choice, Quot.sound |
| ClosedStart.C108_find_all | – | propext, Quot.sound |
| ClosedStart.C108_intersection | – | propext |
| ClosedStart.C108_discretize | – | propext, Classical.choice, Quot.sound |
| ClosedStart.C108_closest_ray | ExactScalar | propext, Classical.choice, Quot.sound |
| ClosedStart.C108_box | ExactScalar | propext, Classical.choice, Quot.sound |
| ClosedStart.C108_convex_hull | ExactScalar, ExactAtan2 | propext, Classical.choice, Quot.sound |
| ClosedStart.C108_hull_loop | ExactScalar | propext, Classical.choice, Quot.sound |
| ClosedStart.C108_contains_inclusive | ExactScalar | propext, Classical.choice, Quot.sound |
| ClosedStart.C108_self_intersecting_long | ExactScalar, ExactSqrt | propext, Classical.choice, Quot.sound |
| ClosedStart.C108_what_depends_on_the_start | Rat | propext, Classical.choice, Quot.sound |
| Curve.C109_intersections | ExactScalar, ExactSqrt | propext, Classical.choice, Quot.sound |
| Curve.C109_find_two | ExactScalar, ExactSqrt | propext, Classical.choice, Quot.sound |
| Curve.C109_closest_ray | ExactScalar | propext, Classical.choice, Quot.sound |
| Curve.C109_box | ExactScalar | propext, Classical.choice, Quot.sound |
| Curve.C109_convex_hull | ExactScalar, ExactAtan2 | propext, Classical.choice, Quot.sound |
| Curve.C109_reversed | ExactScalar | propext, Classical.choice, Quot.sound |
| Curve.C109_other_start | ExactScalar | propext, Classical.choice, Quot.sound |
| Curve.C109_inserted_point | ExactScalar | propext, Classical.choice, Quot.sound |
| Curve.C109_inserted_points | ExactScalar | propext, Classical.choice, Quot.sound |
| Curve.C109_rdp_zero | ExactScalar | propext, Classical.choice, Quot.sound |
| Curve.C109_discretized | ExactScalar, ExactSqrt | propext, Classical.choice, Quot.sound |
| Curve.C109_discretized3 | ExactScalar, ExactSqrt | propext, Classical.choice, Quot.sound |
| Curve.C109_ray_along_a_segment | Rat | propext, Classical.choice, Quot.sound |
| BoxHull.C110_box_hull_is_a_hull | ExactScalar, ExactAtan2 | propext, Classical.choice, Quot.sound |
| BoxHull.C110_box_of_box_hull | ExactScalar | propext, Classical.choice, Quot.sound |
| BoxHull.C110_containment_agrees | ExactScalar | propext, Classical.choice, Quot.sound |
| BoxHull.C110_hull_in_box | ExactScalar | propext, Classical.choice, Quot.sound |
| BoxHull.C110_nested_hulls_nested_boxes | ExactScalar | propext, Classical.choice, Quot.sound |
| BoxHull.C110_flat_boxes | Rat | propext, Classical.choice, Quot.sound |
| BoxHull.C110_box_test_on_floats | Rat | propext, Classical.choice, Quot.sound |
| BoxHull.C110_containment_agrees_on_floats | Rat | propext, Classical.choice, Quot.sound |
| BoxHull.C110_contains_hull_on_floats | Rat | propext, Classical.choice, Quot.sound |
| BoxHull.C110_hull_in_box_on_floats | Rat | propext, Classical.choice, Quot.sound |
| HullAgree.C111_inner_points_do_not_matter | Rat | propext, Classical.choice, Quot.sound |
| HullAgree.C111_only_the_set_matters | Rat | propext, Classical.choice, Quot.sound |
| HullAgree.C111_functions_agree | Rat | propext, Classical.choice, Quot.sound |
| HullAgree.C111_indexed_functions_agree | Rat | propext, Classical.choice, Quot.sound |
| HullAgree.C111_hull_of_hull | Rat | propext, Classical.choice, Quot.sound |
| HullAgree.C111_union_of_hulls | Rat | propext, Classical.choice, Quot.sound |
| HullAgree.C111_same_box | Rat | propext, Classical.choice, Quot.sound |
| SweepParts.C112_on_some_of_the_lines | ExactScalar, ExactSqrt | propext, Classical.choice, Quot.sound |
| SweepParts.C112_ignoring_end_points | ExactScalar, ExactSqrt | propext, Classical.choice, Quot.sound |
| SweepParts.C112_stop_at_first | ExactScalar, ExactSqrt | propext, Classical.choice, Quot.sound |
| SweepParts.C112_indexed | ExactScalar, ExactSqrt | propext, Classical.choice, Quot.sound |
| SweepParts.C112_self_intersecting | ExactScalar, ExactSqrt | propext, Classical.choice, Quot.sound |
| SweepParts.C112_a_further_line_hides_a_crossing | FQ, Rat | propext, Classical.choice, Quot.sound |
| Simple.C113_short_line_strings_on_floats | Real | propext, Classical.choice, Quot.sound |
| Simple.C113_short_line_strings_that_move_ahead_on_floats | Rat | propext, Classical.choice, Quot.sound |
| Simple.C113_short_hulls_on_floats | Rat | propext, Classical.choice, Quot.sound |
| Simple.C113_box_on_floats | Rat | propext, Classical.choice, Quot.sound |
| Simple.C113_short_line_strings | ExactScalar, ExactSqrt | propext, Classical.choice, Quot.sound |
| Simple.C113_short_line_strings_by_slopes | ExactScalar, ExactSqrt | propext, Classical.choice, Quot.sound |
| Simple.C113_short_line_strings_that_move_ahead | ExactScalar, ExactSqrt | propext, Classical.choice, Quot.sound |
| Simple.C113_short_hulls | ExactScalar, ExactSqrt | propext, Classical.choice, Quot.sound |
| Simple.C113_box | ExactScalar, ExactSqrt | propext, Classical.choice, Quot.sound |
| Simple.C113_long_line_strings | ExactScalar, ExactSqrt | propext, Classical.choice, Quot.sound |
| Simple.C113_line_strings_that_move_ahead | ExactScalar, ExactSqrt | propext, Classical.choice, Quot.sound |
| Simple.C113_simplified_line_strings_that_move_ahead | ExactScalar, ExactSqrt | propext, Classical.choice, Quot.sound |
| Simple.C113_hulls | ExactScalar, ExactSqrt | propext, Classical.choice, Quot.sound |
| Simple.C113_short_exceptions | Rat | propext, Classical.choice, Quot.sound |
| RdpExtremes.C114_rdp2_removes_nothing_on_floats | Rat | propext, Classical.choice, Quot.sound |
| RdpExtremes.C114_rdp2_removes_everything_on_floats | Rat | propext, Classical.choice, Quot.sound |
| RdpExtremes.C114_rdp3_removes_nothing_on_floats | Rat | propext, Classical.choice, Quot.sound |
| RdpExtremes.C114_rdp3_removes_everything_on_floats | Rat | propext, Classical.choice, Quot.sound |
| RdpExtremes.C114_hull_keeps_its_corners_on_floats | Rat | propext, Classical.choice, Quot.sound |
| RdpExtremes.C114_rdp2_removes_everything | ExactScalar | propext, Classical.choice, Quot.sound |
| RdpExtremes.C114_rdp3_removes_everything | ExactScalar | propext, Classical.choice, Quot.sound |
| RdpExtremes.C114_rdp2_removes_nothing | ExactScalar | propext, Classical.choice, Quot.sound |
| RdpExtremes.C114_rdp3_removes_nothing | ExactScalar | propext, Classical.choice, Quot.sound |
| RdpExtremes.C114_hull_keeps_its_corners | ExactScalar | propext, Classical.choice, Quot.sound |
| RdpExtremes.C114_no_three_points_collinear | ExactScalar | propext, Classical.choice, Quot.sound |
| RdpExtremes.C114_large_tolerance | ExactScalar | propext, Classical.choice, Quot.sound |
| RdpExtremes.C114_indexed2_removes_nothing | ExactScalar | propext, Classical.choice, Quot.sound |
| RdpExtremes.C114_indexed2_removes_everything | ExactScalar | propext, Classical.choice, Quot.sound |
| RdpExtremes.C114_indexed3_removes_nothing | ExactScalar | propext, Classical.choice, Quot.sound |
| RdpExtremes.C114_indexed3_removes_everything | ExactScalar | propext, Classical.choice, Quot.sound |
| RdpExtremes.C114_indexed_hull_keeps_its_corners | ExactScalar | propext, Classical.choice, Quot.sound |
| VwRefine.C115_vw2_inserted_points_go_first_on_floats | Rat | propext, Classical.choice, Quot.sound |
| VwRefine.C115_vw2_undoes_insertion_on_floats | Rat | propext, Classical.choice, Quot.sound |
| VwRefine.C115_vw3_inserted_points_go_first_on_floats | Rat | propext, Classical.choice, Quot.sound |
| VwRefine.C115_vw3_undoes_insertion_on_floats | Rat | propext, Classical.choice, Quot.sound |
| VwRefine.C115_vw2_inserted_points_go_first | ExactScalar | propext, Classical.choice, Quot.sound |
| VwRefine.C115_vw2_undoes_insertion | ExactScalar | propext, Classical.choice, Quot.sound |
| VwRefine.C115_vw3_inserted_points_go_first | ExactScalar | propext, Classical.choice, Quot.sound |
| VwRefine.C115_vw3_undoes_insertion | ExactScalar | propext, Classical.choice, Quot.sound |
| VwRefine.C115_vw2_undoes_discretize | ExactScalar, ExactSqrt | propext, Classical.choice, Quot.sound |
| VwRefine.C115_vw3_undoes_discretize | ExactScalar, ExactSqrt | propext, Classical.choice, Quot.sound |
| VwRefine.C115_closed_line_strings_are_opened | Rat | propext, Classical.choice, Quot.sound |
| VwRefine.C115_vw2_closed_inserted_points_go_first | ExactScalar | propext, Classical.choice, Quot.sound |
| VwRefine.C115_vw2_closed_undoes_insertion | ExactScalar | propext, Classical.choice, Quot.sound |
| VwRefine.C115_vw2_closed_undoes_discretize | ExactScalar, ExactSqrt | propext, Classical.choice, Quot.sound |
| VwRefine.C115_vw2_closed_inserted_points_go_first_on_floats | Rat | propext, Classical.choice, Quot.sound |
| VwRefine.C115_vw2_closed_undoes_insertion_on_floats | Rat | propext, Classical.choice, Quot.sound |

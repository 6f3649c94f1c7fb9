{
 "claims": [
  {
   "property": "C01",
   "status": "proved",
   "theorems": [
    "Verif.Props.Shape.C01_divide_always_returns"
   ],
   "note": "All index lists; no fuel in the statement: the measure bounds the walk. Includes self edges."
  },
  {
   "property": "C02",
   "status": "proved",
   "theorems": [
    "Verif.Props.Shape.C02_divide_invents_no_edge",
    "Verif.Props.Shape.C02_self_edges_break_it"
   ],
   "note": "Hypothesis: no self edge; C02_self_edges_break_it shows it is needed."
  },
  {
   "property": "C03",
   "status": "proved",
   "theorems": [
    "Verif.Props.Shape.C03_divide_covers_each_edge_once"
   ],
   "note": "Hypothesis: no self edge. Counted over all consecutive pairs of all shapes."
  },
  {
   "property": "C04",
   "status": "proved",
   "theorems": [
    "Verif.Props.Shape.C04_divide_splits_at_junctions"
   ],
   "note": "Hypothesis: no self edge. Neighbours counted in the input edge list, not in the model's adjacency map."
  },
  {
   "property": "C05",
   "status": "proved",
   "theorems": [
    "Verif.Props.Shape.C05_divide_marks_two_way_vertices"
   ],
   "note": "Hypothesis: no self edge."
  },
  {
   "property": "C06",
   "status": "proved",
   "theorems": [
    "Verif.Props.Shape.C06_divide_ignores_duplicates",
    "Verif.Props.Shape.C06_divide_ignores_odd_index"
   ],
   "note": "Result equality for a repeated edge in either orientation and for a trailing unpaired index."
  },
  {
   "property": "C07",
   "status": "proved",
   "theorems": [
    "Verif.Props.Rdp.C07_rdp2_keeps_ends_and_order",
    "Verif.Props.Rdp.C07_rdp3_keeps_ends_and_order"
   ],
   "note": "Any scalar arithmetic (NaN and rounding included). Includes that the recursion ends and never indexes out of range."
  },
  {
   "property": "C08",
   "status": "proved",
   "theorems": [
    "Verif.Props.Rdp.C08_rdp2_error_bound"
   ],
   "note": "Exact arithmetic (ordered field). Statement uses minimum distance to the closed segment; |d| because the code squares d."
  },
  {
   "property": "C09",
   "status": "proved",
   "theorems": [
    "Verif.Props.Rdp.C09_rdp3_error_bound",
    "Verif.Props.Rdp.C09_3d_drops_spikes"
   ],
   "note": "Exact arithmetic (ordered field). Distance is to the infinite line; C09_3d_drops_spikes shows the segment version is false."
  },
  {
   "property": "C10",
   "status": "proved",
   "theorems": [
    "Verif.Props.Rdp.C10_rdp2_idempotent",
    "Verif.Props.Rdp.C10_rdp3_idempotent"
   ],
   "note": "Any scalars without NaN (linear order). "
  },
  {
   "property": "C11",
   "status": "proved",
   "theorems": [
    "Verif.Props.Rdp.C11_indexed2_agrees",
    "Verif.Props.Rdp.C11_indexed3_agrees",
    "Verif.Props.Rdp.C11_small_table",
    "Verif.Props.Rdp.C11_excluded_cases",
    "Verif.Props.Rdp.C11_small_table3",
    "Verif.Props.Rdp.C11_excluded_cases3"
   ],
   "note": "Any scalar arithmetic (NaN and rounding included). C11_excluded_cases: single index is duplicated, empty list panics."
  },
  {
   "property": "C12",
   "status": "proved",
   "theorems": [
    "Verif.Props.C12_vw2_subsequence",
    "Verif.Props.C12_vw2_open_keeps_last",
    "Verif.Props.C12_vw2_short",
    "Verif.Props.C12_nan_area_panics"
   ],
   "note": "All behaviours of the heap (any least entry). Areas must be comparable (no NaN): C12_nan_area_panics shows the hypothesis is needed."
  },
  {
   "property": "C13",
   "status": "proved",
   "theorems": [
    "Verif.Props.C13_vw2_open_length",
    "Verif.Props.C13_vw2_closed_length",
    "Verif.Props.C13_closed_line_is_opened",
    "Verif.Props.C13_four_points_stay"
   ],
   "note": "As C12. Findings: closed lines come out open, four points are never simplified."
  },
  {
   "property": "C14",
   "status": "proved",
   "theorems": [
    "Verif.Props.C14_vw2_open_greedy",
    "Verif.Props.C14_vw2_closed_greedy",
    "Verif.Props.C14_vw3_greedy",
    "Verif.Props.C14_area2",
    "Verif.Props.C14_area3"
   ],
   "note": "As C12. Spec GreedyDeletes does not mention heap or links; C14_area2/3 identify the compared number as the squared area."
  },
  {
   "property": "C15",
   "status": "proved",
   "theorems": [
    "Verif.Props.C15_vw3",
    "Verif.Props.C15_vw3_short",
    "Verif.Props.C15_last_point_is_lost"
   ],
   "note": "As C12. The 3D version never returns the last point."
  },
  {
   "property": "C16",
   "status": "proved",
   "theorems": [
    "Verif.Props.Dist.C16_dist2_is_min",
    "Verif.Props.Dist.C16_dist2_safe_is_min",
    "Verif.Props.Dist.C16_safe_agrees",
    "Verif.Props.Dist.C16_dist2_symm"
   ],
   "note": "Exact arithmetic (ordered field). "
  },
  {
   "property": "C17",
   "status": "proved",
   "theorems": [
    "Verif.Props.Dist.C17_dist3_is_min",
    "Verif.Props.Dist.C17_dist3_safe_is_min",
    "Verif.Props.Dist.C17_3d_is_not_segment_distance"
   ],
   "note": "Exact arithmetic (ordered field). Infinite line; C17_3d_is_not_segment_distance."
  },
  {
   "property": "C18",
   "status": "proved",
   "theorems": [
    "Verif.Props.Intersect.C18_point_is_common",
    "Verif.Props.Intersect.C18_overlap_is_common"
   ],
   "note": "Exact arithmetic (ordered field). ℝ instance exists (square roots)."
  },
  {
   "property": "C19",
   "status": "proved",
   "theorems": [
    "Verif.Props.Intersect.C19_none_iff_disjoint",
    "Verif.Props.Intersect.C19_point_is_unique",
    "Verif.Props.Intersect.C19_overlap_is_exact"
   ],
   "note": "Exact arithmetic (ordered field). "
  },
  {
   "property": "C20",
   "status": "proved",
   "theorems": [
    "Verif.Props.Intersect.C20_same_result",
    "Verif.Props.Intersect.C20_symmetric",
    "Verif.Props.Intersect.C20_symmetric_isSome",
    "Verif.Props.Intersect.C20_reverse"
   ],
   "note": "Exact arithmetic (ordered field). "
  },
  {
   "property": "C21",
   "status": "proved",
   "theorems": [
    "Verif.Props.Intersect.C21_intersection_is_first",
    "Verif.Props.Intersect.C21_find_all_is_filter",
    "Verif.Props.Intersect.C21_intersection_none_iff",
    "Verif.Props.Intersect.C21_intersection_sound",
    "Verif.Props.Intersect.C21_find_all_denotes",
    "Verif.Props.Intersect.C21_find_two"
   ],
   "note": "First/filter statements for any arithmetic; none-iff-disjoint in exact arithmetic."
  },
  {
   "property": "C22",
   "status": "proved",
   "theorems": [
    "Verif.Props.Intersect.C22_nearest_visible_hit",
    "Verif.Props.Intersect.C22_closest_ray_hit",
    "Verif.Props.Intersect.C22_none",
    "Verif.Props.Intersect.C22_collinear_edge_behind_origin_is_invisible"
   ],
   "note": "Exact arithmetic (ordered field). Visibility restriction for collinear edges is stated in the property and shown necessary."
  },
  {
   "property": "C23",
   "status": "proved",
   "theorems": [
    "Verif.Props.Intersect.C23_closest_overlap",
    "Verif.Props.Intersect.C23_single"
   ],
   "note": "Exact arithmetic (ordered field). "
  },
  {
   "property": "C24",
   "status": "proved",
   "theorems": [
    "Verif.Props.Intersect.C24_exact",
    "Verif.Props.Intersect.C24_short_lines_answer",
    "Verif.Props.Intersect.C24_detects_crossings",
    "Verif.Props.Intersect.C24_true_has_reason",
    "Verif.Props.Intersect.C24_three_point_test",
    "Verif.Props.Intersect.C24_misses_overlaps",
    "Verif.Props.Intersect.C24_straight_line_reported",
    "Verif.Props.Intersect.C24_corner_reported"
   ],
   "note": "Fewer than ten points (brute force branch). Findings: false positives of the three point test, missed overlaps."
  },
  {
   "property": "C25",
   "status": "proved",
   "theorems": [
    "Verif.Props.Intersect.C25_window_iter",
    "Verif.Props.Intersect.C25_window_iter_state",
    "Verif.Props.Intersect.C25_chunk_iter",
    "Verif.Props.Intersect.C25_chunk_iter_state",
    "Verif.Props.C25_exact_len",
    "Verif.Props.C25_take_len_panics",
    "Verif.Props.C25_size_hints_are_sound",
    "Verif.Props.C25_window_segments2",
    "Verif.Props.C25_window_segments3",
    "Verif.Props.C25_chunk_segments2",
    "Verif.Props.C25_chunk_segments3"
   ],
   "note": "Polymorphic in the point type, so 2D and 3D."
  },
  {
   "property": "C26",
   "status": "proved",
   "theorems": [
    "Verif.Props.Discretize.C26_always_ends",
    "Verif.Props.Discretize.C26_keeps_points2",
    "Verif.Props.Discretize.C26_keeps_points3",
    "Verif.Props.Discretize.C26_infinite_distance_drops_points"
   ],
   "note": "Any scalar arithmetic (NaN and rounding included). for termination; order/containment needs that no segment is skipped (finite distance)."
  },
  {
   "property": "C27",
   "status": "proved",
   "theorems": [
    "Verif.Props.Discretize.C27_divided2",
    "Verif.Props.Discretize.C27_divided3",
    "Verif.Props.Discretize.C27_step_length2",
    "Verif.Props.Discretize.C27_step_length3",
    "Verif.Props.Discretize.C27_on_line2",
    "Verif.Props.Discretize.C27_on_line3"
   ],
   "note": "Exact arithmetic (ordered field). with exact square roots; Archimedean through the law of ceil."
  },
  {
   "property": "C28",
   "status": "proved",
   "theorems": [
    "Verif.Props.Aabb.C28_copy_roundtrip",
    "Verif.Props.Aabb.C28_orthogonal_zero",
    "Verif.Props.Aabb.C28_copy_roundtrip_3d",
    "Verif.Props.Aabb.C28_mixed_yz_swaps"
   ],
   "note": "Zero of the scalar only; mixed use of point and line copies swaps YZ (finding)."
  },
  {
   "property": "C29",
   "status": "proved",
   "theorems": [
    "Verif.Props.Aabb.C29_get_plane",
    "Verif.Props.Aabb.C29_points_in_plane",
    "Verif.Props.Aabb.C29_relaxed",
    "Verif.Props.Aabb.C29_empty"
   ],
   "note": "Exact arithmetic (ordered field). "
  },
  {
   "property": "C30",
   "status": "proved",
   "theorems": [
    "Verif.Props.Aabb.C30_box2_is_bounding_box",
    "Verif.Props.Aabb.C30_box3_is_bounding_box",
    "Verif.Props.Aabb.C30_box2_contains_fed",
    "Verif.Props.Aabb.C30_box3_contains_fed",
    "Verif.Props.Aabb.C30_box2_minimal",
    "Verif.Props.Aabb.C30_box3_minimal",
    "Verif.Props.Aabb.C30_box_exists_iff"
   ],
   "note": "Any scalars without NaN (linear order). Quantifies over all histories of constructor and update calls."
  },
  {
   "property": "C31",
   "status": "proved",
   "theorems": [
    "Verif.Props.Aabb.C31_box2_order_independent",
    "Verif.Props.Aabb.C31_box3_order_independent"
   ],
   "note": "Any scalars without NaN (linear order). "
  },
  {
   "property": "C32",
   "status": "proved",
   "theorems": [
    "Verif.Props.Aabb.C32_contains_point2",
    "Verif.Props.Aabb.C32_contains_point3",
    "Verif.Props.Aabb.C32_contains_line2",
    "Verif.Props.Aabb.C32_contains_line3",
    "Verif.Props.Aabb.C32_contains_aabb2",
    "Verif.Props.Aabb.C32_contains_aabb3",
    "Verif.Props.Aabb.C32_empty_box",
    "Verif.Props.Aabb.C32_transitive"
   ],
   "note": "Exact arithmetic (ordered field). "
  },
  {
   "property": "C33",
   "status": "proved",
   "theorems": [
    "Verif.Props.Aabb.C33_convex_hull",
    "Verif.Props.Aabb.C33_from_aabb"
   ],
   "note": "Exact arithmetic (ordered field). "
  },
  {
   "property": "C34",
   "status": "proved",
   "theorems": [
    "Verif.Props.Aabb.C34_new_fails_iff",
    "Verif.Props.Aabb.C34_inverse",
    "Verif.Props.Aabb.C34_array_versions"
   ],
   "note": "Exact arithmetic (ordered field). "
  },
  {
   "property": "C35",
   "status": "proved",
   "theorems": [
    "Verif.Props.Aabb.C35_scale_uniform",
    "Verif.Props.Aabb.C35_center",
    "Verif.Props.Aabb.C35_maps_into",
    "Verif.Props.Aabb.C35_small_destination_exceeded"
   ],
   "note": "Exact arithmetic (ordered field). Destination at least 1 in both axes; smaller ones are exceeded (finding)."
  },
  {
   "property": "C36",
   "status": "proved",
   "theorems": [
    "Verif.Props.C36_graham_scan_is_hull",
    "Verif.Props.C36_short_inputs",
    "Verif.Props.C36_any_arithmetic",
    "Verif.Props.C36_short_inputs_all",
    "Verif.Props.C36_equal_points"
   ],
   "note": "Exact arithmetic (ordered field). Any result of the unstable sort that is sorted by the comparator; atan2 only through its order."
  },
  {
   "property": "C37",
   "status": "proved",
   "theorems": [
    "Verif.Props.C37_sort_exists",
    "Verif.Props.C37_graham_scan_wo_atan2_is_hull",
    "Verif.Props.C37_any_arithmetic"
   ],
   "note": "Exact arithmetic (ordered field). C37_sort_exists: the comparator is consistent enough for a sorted permutation to exist."
  },
  {
   "property": "C38",
   "status": "proved",
   "theorems": [
    "Verif.Props.C38_gift_wrap_terminates",
    "Verif.Props.C38_gift_wrap_is_hull",
    "Verif.Props.C38_duplicates_lose_points"
   ],
   "note": "Termination for any arithmetic; hull for pairwise different points in exact arithmetic; duplicates lose vertices (finding)."
  },
  {
   "property": "C39",
   "status": "proved",
   "theorems": [
    "Verif.Props.C39_indexed_graham_members",
    "Verif.Props.C39_indexed_gift_members",
    "Verif.Props.C39_par_members",
    "Verif.Props.C39_line_par_members",
    "Verif.Props.C39_merge_walk"
   ],
   "note": "Any scalar arithmetic (NaN and rounding included). Any sort, any reduction tree."
  },
  {
   "property": "C40",
   "status": "proved",
   "theorems": [
    "Verif.Props.C40_short_inputs",
    "Verif.Props.C40_indexed_graham_scan_is_hull",
    "Verif.Props.C40_indexed_gift_wrap_is_hull",
    "Verif.Props.C40_duplicate_start_loses_points",
    "Verif.Props.C40_any_arithmetic"
   ],
   "note": "Exact arithmetic (ordered field). Pairwise different points (finding otherwise)."
  },
  {
   "property": "C41",
   "status": "proved",
   "theorems": [
    "Verif.Props.C41_one_chunk_is_hull",
    "Verif.Props.C41_two_chunks_one_task_lose_points",
    "Verif.Props.C41_result_depends_on_schedule",
    "Verif.Props.C41_two_chunks_two_tasks_not_convex",
    "Verif.Props.C41_two_chunks_diverge",
    "Verif.Props.C41_short_inputs"
   ],
   "note": "Exact arithmetic (ordered field). One chunk is right for every reduction; four counterexamples for several chunks. See C64 for the positive result."
  },
  {
   "property": "C42",
   "status": "proved",
   "theorems": [
    "Verif.Props.C42_inclusive_iff_left_of_every_edge",
    "Verif.Props.C42_left_of_every_edge_iff_convex_combination",
    "Verif.Props.C42_inclusive_open_hull",
    "Verif.Props.C42_line_inclusive",
    "Verif.Props.C42_line_open_false",
    "Verif.Props.C42_doubled_point_contains_everything",
    "Verif.Props.C42_flat_hull_contains_the_line",
    "Verif.Props.C42_any_arithmetic",
    "Verif.Props.C42_single_point"
   ],
   "note": "Exact arithmetic (ordered field). Strictly convex closed loop; findings for degenerate loops."
  },
  {
   "property": "C43",
   "status": "proved",
   "theorems": [
    "Verif.Props.C43_exclusive_sound",
    "Verif.Props.C43_exclusive_complete",
    "Verif.Props.C43_line_exclusive",
    "Verif.Props.C43_exclusive_rejects_interior_points",
    "Verif.Props.C43_exclusive_iff",
    "Verif.Props.C43_exclusive_open_hull"
   ],
   "note": "Exact arithmetic (ordered field). Sound; complete except on the diagonals through the second point (finding)."
  },
  {
   "property": "C44",
   "status": "proved",
   "theorems": [
    "Verif.Props.C44_contains_hull_iff",
    "Verif.Props.C44_hull_contains_its_points",
    "Verif.Props.C44_small_containers",
    "Verif.Props.C44_degenerate_containers",
    "Verif.Props.C44_any_arithmetic",
    "Verif.Props.C44_differ_on_non_convex_containers"
   ],
   "note": "Exact arithmetic (ordered field). Parallel version: every schedule."
  },
  {
   "property": "C45",
   "status": "proved",
   "theorems": [
    "Verif.Props.C45_error_iff_not_finite",
    "Verif.Props.C45_accepts_and_records",
    "Verif.Props.C45_indexed",
    "Verif.Props.C45_second_call_restarts_the_index"
   ],
   "note": "Any scalar arithmetic (NaN and rounding included). "
  },
  {
   "property": "C46",
   "status": "proved",
   "theorems": [
    "Verif.Props.C46_reported_points_are_common",
    "Verif.Props.C46_indexed_reported_points_are_common"
   ],
   "note": "Exact arithmetic (ordered field). Every iteration order of the hash set in every round."
  },
  {
   "property": "C47",
   "status": "proved",
   "theorems": [
    "Verif.Props.C47_positions_increase",
    "Verif.Props.C47_indexed_positions_increase"
   ],
   "note": "Exact arithmetic (ordered field). "
  },
  {
   "property": "C48",
   "status": "proved",
   "theorems": [
    "Verif.Props.C48_terminates",
    "Verif.Props.C48_indexed_terminates"
   ],
   "note": "Exact arithmetic (ordered field). Measure on pending events and unreported positions; no bound on the number of lines."
  },
  {
   "property": "C49",
   "status": "proved",
   "theorems": [
    "Verif.Props.C49_vertices_preserved"
   ],
   "note": "Old vertices keep index and value; new indices are valid."
  },
  {
   "property": "C50",
   "status": "proved",
   "theorems": [
    "Verif.Props.C50_end_points_2d",
    "Verif.Props.C50_end_points_3d",
    "Verif.Props.C50_straight_line",
    "Verif.Props.C50_straight_line_heights"
   ],
   "note": "Any scalar arithmetic (NaN and rounding included). If it finishes (see C51 for when)."
  },
  {
   "property": "C51",
   "status": "proved",
   "theorems": [
    "Verif.Props.C51_equidistant",
    "Verif.Props.C51_equidistant_3d",
    "Verif.Props.C51_terminates",
    "Verif.Props.C51_terminates_3d",
    "Verif.Props.C51_same_projection_diverges"
   ],
   "note": "Exact arithmetic (ordered field). Termination for an Archimedean field; equal projections diverge (finding)."
  },
  {
   "property": "C52",
   "status": "proved",
   "theorems": [
    "Verif.Props.C52_file",
    "Verif.Props.C52_fault",
    "Verif.Props.C52_text_can_be_read_back",
    "Verif.Props.C52_saved_text_is_well_formed"
   ],
   "note": "Any scalar arithmetic (NaN and rounding included). Text of coordinates is an arbitrary function. The file system is not modelled: output is the list of lines, C52_fault covers a failed write."
  },
  {
   "property": "C53",
   "status": "proved",
   "theorems": [
    "Verif.Props.Intersect.C53_approx_exact",
    "Verif.Props.Intersect.C53_approx_undirected",
    "Verif.Props.Intersect.C53_approx_refl",
    "Verif.Props.Intersect.C53_approx_reversed",
    "Verif.Props.Intersect.C53_tolerance_depends_on_direction",
    "Verif.Props.Intersect.C53_line_equality",
    "Verif.Props.Intersect.C53_line_equality_exact",
    "Verif.Props.Intersect.C53_approx_vec"
   ],
   "note": "Any comparison with the stated laws; tolerance comparison depends on direction (finding)."
  },
  {
   "property": "C54",
   "status": "proved",
   "theorems": [
    "Verif.Props.Rdp.C54_rdp2_is_textbook",
    "Verif.Props.Rdp.C54_rdp3_is_textbook"
   ],
   "note": "Exact arithmetic (ordered field). Spec RdpKeeps is the textbook recursion."
  },
  {
   "property": "C55",
   "status": "proved",
   "theorems": [
    "Verif.Props.C55_monotone",
    "Verif.Props.C55_accuracy",
    "Verif.Props.C55_distance_to_polyline_not_bounded"
   ],
   "note": "Exact arithmetic (ordered field). Distance to chords' lines; to the polyline it is not bounded (finding)."
  },
  {
   "property": "C56",
   "status": "proved",
   "theorems": [
    "Verif.Props.C56_shared_end_points_are_reported",
    "Verif.Props.C56_indexed_shared_end_points_are_reported"
   ],
   "note": "Exact arithmetic (ordered field). Hash order arbitrary."
  },
  {
   "property": "C57",
   "status": "proved",
   "theorems": [
    "Verif.Props.C57_at_least_two_lines",
    "Verif.Props.C57_zero_length_line_meets_itself",
    "Verif.Props.C57_indexed_at_least_two_lines"
   ],
   "note": "Exact arithmetic (ordered field). "
  },
  {
   "property": "C58",
   "status": "proved",
   "theorems": [
    "Verif.Props.C58_default_configuration",
    "Verif.Props.C58_ignoring_end_points",
    "Verif.Props.C58_stops_at_the_first",
    "Verif.Props.C58_self_intersecting_is_true",
    "Verif.Props.C58_indexed_ignoring_end_points",
    "Verif.Props.C58_indexed_stops_at_the_first"
   ],
   "note": "Exact arithmetic (ordered field). "
  },
  {
   "property": "C59",
   "status": "proved",
   "theorems": [
    "Verif.Props.C59_start_point_on_a_line_is_missed",
    "Verif.Props.C59_crossing_is_missed",
    "Verif.Props.C59_reports_exactly_the_common_points",
    "Verif.Props.C59_ignoring_end_points_reports_exactly_the_crossings",
    "Verif.Props.C59_ignoring_end_points_reports_the_points_inside_a_line",
    "Verif.Props.C59_stop_at_first_finds_a_touch",
    "Verif.Props.C59_stop_at_first_finds_a_crossing",
    "Verif.Props.C59_self_intersecting_iff",
    "Verif.Props.C59_self_intersecting_iff_touch",
    "Verif.Props.C59_indexed_reports_exactly_the_common_points",
    "Verif.Props.C59_shared_vertex_at_the_height_of_an_event",
    "Verif.Props.C59_indexed_ignoring_end_points",
    "Verif.Props.C59_indexed_stop_at_first_finds_a_touch",
    "Verif.Props.C59_touching_example"
   ],
   "note": "Exact arithmetic (ordered field). SweepPosition (Spec/Sweep) lists the hypotheses, GeneralPosition the stronger ones of the versions about crossings; C59_touching_example meets the former and not the latter; counterexamples without them."
  },
  {
   "property": "C60",
   "status": "proved",
   "theorems": [
    "Verif.Props.C60_line_direction",
    "Verif.Props.C60_edge_direction",
    "Verif.Props.C60_direction_of_overlapping_edges",
    "Verif.Props.C60_independent_of_hash_order",
    "Verif.Props.C60_self_intersecting_independent",
    "Verif.Props.C60_indexed_independent_of_hash_order",
    "Verif.Props.C60_plain_and_indexed_agree"
   ],
   "note": "Exact arithmetic (ordered field). Two runs with unrelated iteration orders and shapes of the search trees. General position as in C59. Finding 37: C60_direction_of_overlapping_edges."
  },
  {
   "property": "C61",
   "status": "proved",
   "theorems": [
    "Verif.Props.C61_first_of_the_full_result",
    "Verif.Props.C61_indexed_first_of_the_full_result"
   ],
   "note": "Exact arithmetic (ordered field). "
  },
  {
   "property": "C62",
   "status": "proved",
   "theorems": [
    "Verif.Props.C62_hull_is_unique",
    "Verif.Props.C62_graham_scan_depends_on_the_set_only",
    "Verif.Props.C62_graham_scans_agree",
    "Verif.Props.C62_gift_wrap_agrees",
    "Verif.Props.C62_indexed_agree",
    "Verif.Props.C62_hull_of_hull",
    "Verif.Props.C62_hull_of_a_triangle_is_open"
   ],
   "note": "Exact arithmetic (ordered field). "
  },
  {
   "property": "C63",
   "status": "proved",
   "theorems": [
    "Verif.Props.C63_points_are_combinations_of_the_vertices",
    "Verif.Props.C63_same_bounding_box",
    "Verif.Props.C63_graham_scan_keeps_the_bounding_box",
    "Verif.Props.C63_spans_the_convex_hull",
    "Verif.Props.C63_graham_scan_spans_the_convex_hull"
   ],
   "note": "Exact arithmetic (ordered field). Smallest convex set is Mathlib's convexHull (for ℝ-like fields as modules over themselves)."
  },
  {
   "property": "C64",
   "status": "proved",
   "theorems": [
    "Verif.Props.C64_several_chunks_is_hull",
    "Verif.Props.C64_line_several_chunks_is_hull"
   ],
   "note": "Exact arithmetic (ordered field). General position and one chunk per task; both needed (C41)."
  },
  {
   "property": "C65",
   "status": "proved",
   "theorems": [
    "Verif.Props.Aabb.C65_center_inside3",
    "Verif.Props.Aabb.C65_accessors2",
    "Verif.Props.Aabb.C65_accessors3",
    "Verif.Props.Aabb.C65_center_inside",
    "Verif.Props.Aabb.C65_equality"
   ],
   "note": "Exact arithmetic (ordered field). "
  },
  {
   "property": "C66",
   "status": "proved",
   "theorems": [
    "Verif.Props.Aabb.C66_apply2",
    "Verif.Props.Aabb.C66_apply3",
    "Verif.Props.Aabb.C66_unordered_corners_contain_nothing",
    "Verif.Props.Aabb.C66_from_corners"
   ],
   "note": "Any scalars without NaN (linear order). Negative part in exact arithmetic."
  },
  {
   "property": "C67",
   "status": "proved",
   "theorems": [
    "Verif.Props.Similar.C67_apply",
    "Verif.Props.Similar.C67_rdp2_commutes_with_similarities",
    "Verif.Props.Similar.C67_rdp3_commutes_with_similarities",
    "Verif.Props.Similar.C67_affine_is_similarity",
    "Verif.Props.Similar.C67_vw2_commutes_with_similarities",
    "Verif.Props.Similar.C67_vw3_commutes_with_similarities"
   ],
   "note": "Exact arithmetic (ordered field). Similarity is stated by distances only. For VW the heap of the mapped run breaks ties like the original one."
  },
  {
   "property": "C68",
   "status": "proved",
   "theorems": [
    "Verif.Props.Misc.C68_cross",
    "Verif.Props.Misc.C68_orientation",
    "Verif.Props.Misc.C68_orientation_symmetry"
   ],
   "note": "Exact arithmetic (ordered field). "
  },
  {
   "property": "C69",
   "status": "proved",
   "theorems": [
    "Verif.Props.Misc.C69_scale_to_coordinate",
    "Verif.Props.Misc.C69_point_on_line"
   ],
   "note": "Exact arithmetic (ordered field). With exact square roots."
  },
  {
   "property": "C70",
   "status": "proved",
   "theorems": [
    "Verif.Props.Misc.C70_is_connected",
    "Verif.Props.Misc.C70_point_count",
    "Verif.Props.C70_line_apply",
    "Verif.Props.C70_line_from_array"
   ],
   "note": "is_connected for any arithmetic; point_count without NaN."
  },
  {
   "property": "C71",
   "status": "proved",
   "theorems": [
    "Verif.Props.C71_orientation_is_exact",
    "Verif.Props.C71_tiny_points_are_collinear",
    "Verif.Props.C71_hull_of_a_tiny_square",
    "Verif.Props.C71_tiny_square_contains_points_outside",
    "Verif.Props.C71_hull_of_a_huge_square",
    "Verif.Props.C71_huge_square_loses_its_centre"
   ],
   "note": "IEEE floats of any format, rounding included. Exact on a grid; all tiny points collinear (finding)."
  },
  {
   "property": "C72",
   "status": "proved",
   "theorems": [
    "Verif.Props.C72_gift_wrap_on_floats",
    "Verif.Props.C72_indexed_gift_wrap_on_floats"
   ],
   "note": "IEEE floats of any format, rounding included. "
  },
  {
   "property": "C73",
   "status": "proved",
   "theorems": [
    "Verif.Props.C73_sort_exists",
    "Verif.Props.C73_graham_scan_wo_atan2_on_floats"
   ],
   "note": "IEEE floats of any format, rounding included. Any sort that sorts grid points; one exists (C73_sort_exists)."
  },
  {
   "property": "C74",
   "status": "proved",
   "theorems": [
    "Verif.Props.C74_graham_scan_on_floats",
    "Verif.Props.C74_accurate_atan2_is_good",
    "Verif.Props.C74_good_atan2_exists",
    "Verif.Props.C74_sort_exists"
   ],
   "note": "IEEE floats of any format, rounding included. atan2 is a parameter with an accuracy bound; such a function exists (C74_good_atan2_exists). Any sort that sorts entries without NaN; one exists."
  },
  {
   "property": "C75",
   "status": "proved",
   "theorems": [
    "Verif.Props.C75_exclusive_iff_on_floats",
    "Verif.Props.C75_contains_inclusive_on_floats",
    "Verif.Props.C75_contains_exclusive_on_floats",
    "Verif.Props.C75_contains_convex_hull_on_floats"
   ],
   "note": "IEEE floats of any format, rounding included. "
  },
  {
   "property": "C76",
   "status": "proved",
   "theorems": [
    "Verif.Props.C76_box2_on_floats",
    "Verif.Props.C76_box2_contains_fed_on_floats",
    "Verif.Props.C76_box2_order_independent_on_floats",
    "Verif.Props.C76_box3_on_floats",
    "Verif.Props.C76_with_points3_on_floats",
    "Verif.Props.C76_nan_poisons_box3",
    "Verif.Props.C76_center2_on_floats",
    "Verif.Props.C76_center3_on_floats",
    "Verif.Props.C76_center_overflow"
   ],
   "note": "IEEE floats of any format, rounding included. All floats including NaN; the 3D theorem excludes NaN because of C76_nan_poisons_box3 (finding)."
  },
  {
   "property": "C77",
   "status": "proved",
   "theorems": [
    "Verif.Props.C77_intersection_on_floats",
    "Verif.Props.C77_exact_at_the_ends",
    "Verif.Props.C77_reported_iff_common_point",
    "Verif.Props.C77_symmetric",
    "Verif.Props.C77_not_exact_at_the_other_ends"
   ],
   "note": "IEEE floats of any format, rounding included. Exact common points are stated over the reals (OnSegment2 of exactR). Finding 22: C77_not_exact_at_the_other_ends."
  },
  {
   "property": "C78",
   "status": "proved",
   "theorems": [
    "Verif.Props.C78_accepts_points_on_the_segment",
    "Verif.Props.C78_accepted_points_are_near",
    "Verif.Props.C78_point_on_point",
    "Verif.Props.C78_exact_on_small_grids",
    "Verif.Props.C78_any_segments_on_small_grids",
    "Verif.Props.C78_false_positive"
   ],
   "note": "IEEE floats of any format, rounding included. Distances are stated over the reals. Finding 17: C78_false_positive."
  },
  {
   "property": "C79",
   "status": "proved",
   "theorems": [
    "Verif.Props.C79_an_internal_error_is_possible",
    "Verif.Props.C79_sweep_on_any_floats",
    "Verif.Props.C79_sweep_stops_on_any_floats",
    "Verif.Props.C79_small_trees_are_dependable",
    "Verif.Props.C79_separate_points_are_dependable",
    "Verif.Props.C79_indexed_sweep_on_any_floats",
    "Verif.Props.C79_indexed_sweep_stops_on_any_floats",
    "Verif.Props.C79_sweep_on_a_grid",
    "Verif.Props.C79_sweep_stops_on_a_grid",
    "Verif.Props.C79_indexed_sweep_on_a_grid",
    "Verif.Props.C79_indexed_sweep_stops_on_a_grid",
    "Verif.Props.C79_self_intersecting_on_any_floats",
    "Verif.Props.C79_self_intersecting_stops_on_any_floats",
    "Verif.Props.C79_self_intersecting_on_a_grid",
    "Verif.Props.C79_self_intersecting_stops_on_a_grid",
    "Verif.Props.C79_finite_lines_may_be_refused"
   ],
   "note": "IEEE floats of any format, rounding included. Soundness needs no assumption but finiteness and holds for every shape of the search trees. Totality needs Dependable (Props/FloatSweep): C79_small_trees_are_dependable and C79_separate_points_are_dependable give cases, C79_an_internal_error_is_possible shows that it is needed (finding 35). 'At least two lines per position' also holds for every shape with stop_at_first_intersection."
  },
  {
   "property": "C80",
   "status": "proved",
   "theorems": [
    "Verif.Props.C80_rdp2_is_textbook",
    "Verif.Props.C80_rdp2_error_bound",
    "Verif.Props.C80_rdp2_idempotent",
    "Verif.Props.C80_rdp3_is_textbook",
    "Verif.Props.C80_rdp3_error_bound",
    "Verif.Props.C80_rdp3_idempotent",
    "Verif.Props.C80_underflow_exceeds_tolerance"
   ],
   "note": "IEEE floats of any format, rounding included. The distances D and the threshold T are the computed ones; their relative errors are part of the theorem. Finding 20: C80_underflow_exceeds_tolerance."
  },
  {
   "property": "C81",
   "status": "proved",
   "theorems": [
    "Verif.Props.C81_floats_total",
    "Verif.Props.C81_vw2_subsequence",
    "Verif.Props.C81_vw2_open",
    "Verif.Props.C81_vw2_closed",
    "Verif.Props.C81_vw3",
    "Verif.Props.C81_heap_exists",
    "Verif.Props.C81_vw2_open_greedy",
    "Verif.Props.C81_vw2_closed_greedy",
    "Verif.Props.C81_vw3_greedy",
    "Verif.Props.C81_large_coordinates_panic",
    "Verif.Props.C81_small_coordinates_lose_area"
   ],
   "note": "IEEE floats of any format, rounding included. C81_heap_exists gives a heap as the theorems want it. Findings 19 and 21: C81_large_coordinates_panic, C81_small_coordinates_lose_area."
  },
  {
   "property": "C82",
   "status": "proved",
   "theorems": [
    "Verif.Props.C82_intersection_none_iff",
    "Verif.Props.C82_intersection_is_first",
    "Verif.Props.C82_find_all",
    "Verif.Props.C82_find_two",
    "Verif.Props.C82_two_reports_for_one_point",
    "Verif.Props.C82_one_exact_point"
   ],
   "note": "IEEE floats of any format, rounding included. Common points are stated over the reals. Finding 23: C82_two_reports_for_one_point."
  },
  {
   "property": "C83",
   "status": "proved",
   "theorems": [
    "Verif.Props.C83_three_point_test",
    "Verif.Props.C83_detects_crossings",
    "Verif.Props.C83_true_has_reason",
    "Verif.Props.C83_same_as_real",
    "Verif.Props.C83_grid64",
    "Verif.Props.C83_crossing64",
    "Verif.Props.C83_simple64",
    "Verif.Props.C83_negative_zero"
   ],
   "note": "IEEE floats of any format, rounding included. ThreePoint (Spec/Intersect) and ThreePointFloat (Spec/Float) state the mistyped test of the code. Line strings of ten or more points: C79. Finding 24: C83_negative_zero."
  },
  {
   "property": "C84",
   "status": "proved",
   "theorems": [
    "Verif.Props.C84_divided2",
    "Verif.Props.C84_divided3",
    "Verif.Props.C84_keeps_points2",
    "Verif.Props.C84_keeps_points3",
    "Verif.Props.C84_step_length2",
    "Verif.Props.C84_step_length3",
    "Verif.Props.C84_bad_distance2",
    "Verif.Props.C84_bad_distance3",
    "Verif.Props.C84_zero_distance2",
    "Verif.Props.C84_huge_coordinates2",
    "Verif.Props.C84_count_is_rounded",
    "Verif.Props.C84_underflow_drops_points"
   ],
   "note": "IEEE floats of any format, rounding included. Lengths and distances are stated over the reals. StepGrid, StepCountWithin and DividedNear are in Spec/Float; stepGrid64 and stepGrid32 give the grids of integers. Findings 25 and 26."
  },
  {
   "property": "C85",
   "status": "proved",
   "theorems": [
    "Verif.Props.C85_indexed_graham_scan_on_floats",
    "Verif.Props.C85_one_chunk_on_floats",
    "Verif.Props.C85_several_chunks_on_floats",
    "Verif.Props.C85_line_several_chunks_on_floats"
   ],
   "note": "IEEE floats of any format, rounding included. atan2 and the sort as in C74. The schedules of C41/C64: one chunk, or one task for every chunk (the others can be wrong also in exact arithmetic, findings of C41)."
  },
  {
   "property": "C86",
   "status": "proved",
   "theorems": [
    "Verif.Props.C86_distance2_safe",
    "Verif.Props.C86_distance2",
    "Verif.Props.C86_distance3_safe",
    "Verif.Props.C86_never_negative",
    "Verif.Props.C86_equal_ends_nan"
   ],
   "note": "IEEE floats of any format, rounding included. The exact distance is the minimum over the points of the segment (line), as in C16 and C17. Finding 28: C86_equal_ends_nan."
  },
  {
   "property": "C87",
   "status": "proved",
   "theorems": [
    "Verif.Props.C87_image_is_the_exact_transform",
    "Verif.Props.C87_transform_ab",
    "Verif.Props.C87_transform_ba",
    "Verif.Props.C87_stays_in_the_destination",
    "Verif.Props.C87_round_trip",
    "Verif.Props.C87_results_are_finite",
    "Verif.Props.C87_corner_leaves_the_destination",
    "Verif.Props.C87_corner_does_not_come_back",
    "Verif.Props.C87_huge_box_collapses"
   ],
   "note": "IEEE floats of any format, rounding included. Spec/Affine states the map; C87_image_is_the_exact_transform links it with the code in exact arithmetic (C34, C35). Findings 29 and 30."
  },
  {
   "property": "C88",
   "status": "proved",
   "theorems": [
    "Verif.Props.C88_nan_tolerance_never_ends",
    "Verif.Props.C88_equal_ends_never_end",
    "Verif.Props.C88_point_segment_never_ends",
    "Verif.Props.C88_cell_at_start_never_ends",
    "Verif.Props.C88_cell_on_line_never_ends",
    "Verif.Props.C88_same_foot_never_ends",
    "Verif.Props.C88_small_tolerance_never_ends",
    "Verif.Props.C88_points_near_the_parabola_2d",
    "Verif.Props.C88_points_near_the_parabola_3d"
   ],
   "note": "IEEE floats of any format, rounding included. Equidistant (Props/Parabola) is stated with the minimal distance to the points of the line. The third coordinate of discretize_3d is the computed distance to the cell point (C50). Finding 31."
  },
  {
   "property": "C89",
   "status": "proved",
   "theorems": [
    "Verif.Props.C89_nearest_hit_on_floats",
    "Verif.Props.C89_none_on_floats",
    "Verif.Props.C89_zero_direction",
    "Verif.Props.C89_a_ray_slips_through_a_vertex"
   ],
   "note": "IEEE floats of any format, rounding included. VisibleHit and rayPoint as in C22 (Props/Intersect). Finding 32."
  },
  {
   "property": "C90",
   "status": "proved",
   "theorems": [
    "Verif.Props.C90_vw2_nested",
    "Verif.Props.C90_vw3_nested",
    "Verif.Props.C90_rdp2_stages",
    "Verif.Props.C90_rdp3_stages",
    "Verif.Props.C90_indexed_nested",
    "Verif.Props.C90_rdp_nested_on_floats",
    "Verif.Props.C90_rdp2_stages_on_floats",
    "Verif.Props.C90_rdp3_stages_on_floats",
    "Verif.Props.C90_nan_tolerance",
    "Verif.Props.C90_nan_point_hides_others"
   ],
   "note": "Two runs on the same input. The stages theorems imply C10 (equal tolerances). The hypothesis on floats (no computed distance is NaN) holds on every grid as in C80. Finding 33: C90_nan_point_hides_others."
  },
  {
   "property": "C91",
   "status": "proved",
   "theorems": [
    "Verif.Props.C91_shared_end_points_on_a_grid",
    "Verif.Props.C91_indexed_shared_end_points_on_a_grid",
    "Verif.Props.C91_inner_vertices_are_reported",
    "Verif.Props.C91_a_common_end_point_may_be_lost"
   ],
   "note": "IEEE floats of any format, rounding included. C56 on floats. mergeError, GoodGrid, enough and Dependable as in C79. Finding 34: C91_a_common_end_point_may_be_lost."
  },
  {
   "property": "C92",
   "status": "proved",
   "theorems": [
    "Verif.Props.Shape.C92_divide_depends_only_on_the_edges",
    "Verif.Props.Shape.C92_no_other_division",
    "Verif.Props.Shape.C92_divide_commutes_with_renaming"
   ],
   "note": "SameShape and closeLoop are in Spec/Shape. The order of the shapes and the start and direction of loops do depend on the order of the edges (see the example sampleTurned)."
  },
  {
   "property": "C93",
   "status": "proved",
   "theorems": [
    "Verif.Props.C93_hull_contains_the_combinations",
    "Verif.Props.C93_convex_hull_then_contains",
    "Verif.Props.C93_nested_hulls",
    "Verif.Props.C93_more_points_larger_hull",
    "Verif.Props.C93_containment_is_an_order",
    "Verif.Props.C93_hull_contains_on_floats",
    "Verif.Props.C93_convex_hull_then_contains_on_floats",
    "Verif.Props.C93_sort_exists"
   ],
   "note": "Exact arithmetic (ExactScalar), and binary floating point formats for the _on_floats theorems (as in C74 and C75). InTriangleOf and IsHullLoop are in Spec/Hull; every hull function is shown to return an IsHullLoop in C36-C41, C72-C74, C85."
  },
  {
   "property": "C94",
   "status": "proved",
   "theorems": [
    "Verif.Props.AffineInv.C94_intersection_point",
    "Verif.Props.AffineInv.C94_line_string_intersections",
    "Verif.Props.AffineInv.C94_closest_ray_intersection",
    "Verif.Props.AffineInv.C94_contains",
    "Verif.Props.AffineInv.C94_contains_convex_hull",
    "Verif.Props.AffineInv.C94_hull_edges",
    "Verif.Props.AffineInv.C94_convex_hull",
    "Verif.Props.AffineInv.C94_moved_and_scaled",
    "Verif.Props.AffineInv.C94_gift_wrap",
    "Verif.Props.AffineInv.C94_sweep",
    "Verif.Props.AffineInv.C94_sweep_horizontal",
    "Verif.Props.AffineInv.C94_self_intersection_depends_on_coordinates",
    "Verif.Props.Discretize.C94_discretize2",
    "Verif.Props.Discretize.C94_discretize3",
    "Verif.Props.Discretize.C94_discretize_reverse2",
    "Verif.Props.Discretize.C94_discretize_reverse3",
    "Verif.Props.C94_sweep_moved_and_scaled",
    "Verif.Props.C94_indexed_sweep_moved_and_scaled",
    "Verif.Props.C94_long_self_intersection",
    "Verif.Props.C94_sweep_example"
   ],
   "note": "Exact arithmetic (ordered field). Affine2 (Spec/AffineMap) and IsSimilarity2/3 (Spec/Similar) state the maps; ImageReport and IsEdge (Props/AffineInv) the relation of the results. General position of the mapped lines is a hypothesis, or follows for maps that keep horizontal lines (C94_sweep_horizontal). Finding 36: C94_self_intersection_depends_on_coordinates. Simplification: C67."
  },
  {
   "property": "C95",
   "status": "proved",
   "theorems": [
    "Verif.Props.Length.C95_discretize_box2",
    "Verif.Props.Length.C95_discretize_box3",
    "Verif.Props.Length.C95_discretize_fine2",
    "Verif.Props.Length.C95_discretize_fine3",
    "Verif.Props.Length.C95_discretize_idempotent",
    "Verif.Props.Length.C95_discretize_length",
    "Verif.Props.Length.C95_discretize_size",
    "Verif.Props.Length.C95_rdp2_length",
    "Verif.Props.Length.C95_rdp3_length",
    "Verif.Props.Length.C95_vw_length",
    "Verif.Props.Length.C95_rdp_box",
    "Verif.Props.Length.C95_vw_box"
   ],
   "note": "Exact arithmetic (ordered field). Lengths over the real numbers (Spec/Length: dist2, dist3, pathLength); boxes over every ordered scalar for the simplifications and over every exact one with square roots for discretize."
  },
  {
   "property": "C96",
   "status": "proved",
   "theorems": [
    "Verif.Props.Debug.C96_number_reads_back",
    "Verif.Props.Debug.C96_number_has_a_point",
    "Verif.Props.Debug.C96_whole_number",
    "Verif.Props.Debug.C96_not_finite",
    "Verif.Props.Debug.C96_line2_reads_back",
    "Verif.Props.Debug.C96_line3_reads_back",
    "Verif.Props.Debug.C96_aabb2_reads_back",
    "Verif.Props.Debug.C96_line2_text_determines",
    "Verif.Props.Debug.C96_intersection_text",
    "Verif.Props.Debug.C96_vertex_index_text",
    "Verif.Props.Debug.C96_site_event_key_text",
    "Verif.Props.Debug.C96_texts_exist",
    "Verif.Props.Debug.C96_concrete"
   ],
   "note": "Binary floating point formats (any precision). The texts of numbers made by the standard library are parameters: DisplayOk and DisplayOneOk (Spec/Decimal) state its promises, C96_texts_exist shows they can be kept. The reader (readLine2 etc. in Props/Debug, number in Spec/Decimal) is the specification. Formatter options are not modelled, nor the derived Debug of other types."
  },
  {
   "property": "C97",
   "status": "proved",
   "theorems": [
    "Verif.Props.Reverse.C97_indexed_rdp2_reverse",
    "Verif.Props.Reverse.C97_indexed_rdp3_reverse",
    "Verif.Props.Reverse.C97_rdp2_reverse",
    "Verif.Props.Reverse.C97_rdp3_reverse",
    "Verif.Props.Reverse.C97_rdp_ties",
    "Verif.Props.Reverse.C97_vw2_any_queue",
    "Verif.Props.Reverse.C97_vw3_any_queue",
    "Verif.Props.Reverse.C97_vw2_reverse",
    "Verif.Props.Reverse.C97_rdp_example",
    "Verif.Props.Reverse.C97_vw_example",
    "Verif.Props.Reverse.C97_vw3_reverse",
    "Verif.Props.Reverse.C97_area3_float_symmetric",
    "Verif.Props.Reverse.C97_vw3_reverse_float",
    "Verif.Props.Reverse.C97_area2_float_not_symmetric",
    "Verif.Props.Reverse.C97_vw3_example"
   ],
   "note": "simplify_rdp and the reversal of simplify_vw in exact arithmetic (ExactScalar); C97_vw2_any_queue and C97_vw3_any_queue use no law of arithmetic; C97_vw3_reverse_float is for f32/f64 without NaN areas. The example theorems show that the hypotheses can be met. Finding 39: C97_rdp_ties."
  },
  {
   "property": "C98",
   "status": "proved",
   "theorems": [
    "Verif.Props.C98_vertices_in_any_arithmetic",
    "Verif.Props.C98_old_index_iff_end_point",
    "Verif.Props.C98_new_vertices_are_common",
    "Verif.Props.C98_new_vertices_are_reported",
    "Verif.Props.C98_unused_vertices"
   ],
   "note": "C98_vertices_in_any_arithmetic uses no law of arithmetic (floats included). The others in exact arithmetic with exact square roots (as C45-C49), with the bound on the number of rounds of C45. OnEdge is in Props/SweepComplete, IsEdgeEnd beside the theorems. Finding 40: C98_unused_vertices."
  },
  {
   "property": "C99",
   "status": "proved",
   "theorems": [
    "Verif.Props.Planar.C99_discretize",
    "Verif.Props.Planar.C99_simplify_rdp",
    "Verif.Props.Planar.C99_rdp_differs",
    "Verif.Props.Planar.C99_simplify_vw",
    "Verif.Props.Planar.C99_box",
    "Verif.Props.Planar.C99_get_plane",
    "Verif.Props.Planar.C99_copy_flat",
    "Verif.Props.Planar.C99_is_connected",
    "Verif.Props.Planar.C99_vw_differs",
    "Verif.Props.Planar.C99_discretize_floats",
    "Verif.Props.Planar.C99_box_floats"
   ],
   "note": "Exact arithmetic (ExactScalar) for the simplifications, is_connected and get_plane; C99_discretize_floats and C99_box_floats for every binary format (exponent range at least that of usize for discretize). Findings: C99_rdp_differs, C99_vw_differs."
  },
  {
   "property": "C100",
   "status": "proved",
   "theorems": [
    "Verif.Props.C100_any_arithmetic",
    "Verif.Props.C100_start_is_first",
    "Verif.Props.C100_no_loop_is_hull",
    "Verif.Props.C100_other_starts"
   ],
   "note": "C100_any_arithmetic and C100_start_is_first use no law of arithmetic; C100_no_loop_is_hull in exact arithmetic with any sort that sorts. Finding 43: C100_other_starts."
  },
  {
   "property": "C101",
   "status": "proved",
   "theorems": [
    "Verif.Props.Intersect.C101_segments",
    "Verif.Props.Intersect.C101_find_all",
    "Verif.Props.Intersect.C101_intersection",
    "Verif.Props.Intersect.C101_closest_ray",
    "Verif.Props.Intersect.C101_self_intersection",
    "Verif.Props.Intersect.C101_self_intersection_depends_on_direction",
    "Verif.Props.Intersect.C101_self_intersection_example",
    "Verif.Props.Intersect.C101_connected_box_hull"
   ],
   "note": "Exact arithmetic (ordered field). C101_segments uses no law of arithmetic. Finding 45: C101_self_intersection_depends_on_direction."
  },
  {
   "property": "C102",
   "status": "proved",
   "theorems": [
    "Verif.Props.C102_line_order",
    "Verif.Props.C102_line_order_and_direction",
    "Verif.Props.C102_permuted_lines",
    "Verif.Props.C102_long_line_string_direction",
    "Verif.Props.C102_edge_order",
    "Verif.Props.C102_example"
   ],
   "note": "Exact arithmetic with exact square roots, with the bound on the number of rounds of C45. Renumbered (Proofs/SweepRename): what is at i in one list is at pi i in the other; C102_permuted_lines needs only List.Perm."
  },
  {
   "property": "C103",
   "status": "proved",
   "theorems": [
    "Verif.Props.SimplifyCurve.C103_rdp2_curves_are_near",
    "Verif.Props.SimplifyCurve.C103_rdp3_curves_are_near",
    "Verif.Props.SimplifyCurve.C103_example",
    "Verif.Props.SimplifyCurve.C103_rdp2_curves_are_near_float",
    "Verif.Props.SimplifyCurve.C103_rdp3_curves_are_near_float"
   ],
   "note": "Exact arithmetic (ordered field). C103_rdp2/3_curves_are_near_float: IEEE floats of any format, rounding included. C103_example shows that the first half of the 2D claim does not hold in 3D."
  },
  {
   "property": "C104",
   "status": "proved",
   "theorems": [
    "Verif.Props.Shape.C104_simplified_network2",
    "Verif.Props.Shape.C104_simplified_network3",
    "Verif.Props.Shape.C104_network_is_near2",
    "Verif.Props.Shape.C104_network_is_near3",
    "Verif.Props.Shape.C104_example",
    "Verif.Props.Shape.C104_network_is_near2_float",
    "Verif.Props.Shape.C104_network_is_near3_float"
   ],
   "note": "C104_simplified_network2/3 use no law of arithmetic (NaN and rounding included); C104_network_is_near2/3 in exact arithmetic, C104_network_is_near2/3_float on grids. SameNetwork is a structure beside the theorems, in terms of Edge, TwoNeighbours, windows of Spec/Shape."
  },
  {
   "property": "C105",
   "status": "proved",
   "theorems": [
    "Verif.Props.Reverse.C105_indexed_rdp2_inserted_points",
    "Verif.Props.Reverse.C105_indexed_rdp3_inserted_points",
    "Verif.Props.Rdp.C105_rdp2_inserted_points",
    "Verif.Props.Rdp.C105_rdp3_inserted_points",
    "Verif.Props.Rdp.C105_rdp2_discretize",
    "Verif.Props.Rdp.C105_rdp3_discretize",
    "Verif.Props.Rdp.C105_example"
   ],
   "note": "Exact arithmetic (ordered field). The hypothesis is the relation Simplification of Spec/Simplify with 'strictly inside of the segment': coarse arises from fine by dropping points of its own segments. C105_rdp2/3_discretize need exact square roots (as C27)."
  },
  {
   "property": "C106",
   "status": "proved",
   "theorems": [
    "Verif.Props.C106_inner_points_do_not_matter",
    "Verif.Props.C106_corners_suffice",
    "Verif.Props.C106_union_of_hulls",
    "Verif.Props.C106_hull_of_discretized",
    "Verif.Props.C106_example"
   ],
   "note": "Exact arithmetic (ordered field). By C62 the same holds for graham_scan_wo_atan2, and for gift_wrap and the indexed functions if no point is repeated. InTriangleOf is in Spec/Hull. C106_hull_of_discretized needs exact square roots (as C27)."
  },
  {
   "property": "C107",
   "status": "proved",
   "theorems": [
    "Verif.Props.Parts.C107_segments",
    "Verif.Props.Parts.C107_intersection",
    "Verif.Props.Parts.C107_find_all",
    "Verif.Props.Parts.C107_discretize",
    "Verif.Props.Parts.C107_self_intersection",
    "Verif.Props.Parts.C107_closest_ray",
    "Verif.Props.Parts.C107_box",
    "Verif.Props.Parts.C107_rdp2",
    "Verif.Props.Parts.C107_rdp3",
    "Verif.Props.Parts.C107_a_cut_is_visible"
   ],
   "note": "C107_segments, C107_intersection, C107_find_all, C107_discretize and C107_self_intersection use no law of arithmetic (NaN and rounding included); the others in exact arithmetic. C107_a_cut_is_visible shows what does not carry over. For hulls see C106."
  },
  {
   "property": "C108",
   "status": "proved",
   "theorems": [
    "Verif.Props.ClosedStart.C108_segments",
    "Verif.Props.ClosedStart.C108_find_all",
    "Verif.Props.ClosedStart.C108_intersection",
    "Verif.Props.ClosedStart.C108_discretize",
    "Verif.Props.ClosedStart.C108_closest_ray",
    "Verif.Props.ClosedStart.C108_box",
    "Verif.Props.ClosedStart.C108_convex_hull",
    "Verif.Props.ClosedStart.C108_hull_loop",
    "Verif.Props.ClosedStart.C108_contains_inclusive",
    "Verif.Props.ClosedStart.C108_self_intersecting_long",
    "Verif.Props.ClosedStart.C108_what_depends_on_the_start"
   ],
   "note": "C108_segments, C108_intersection, C108_find_all and C108_discretize use no law of arithmetic (NaN and rounding included); the others in exact arithmetic. The long is_self_intersecting needs the step bound of C46 on the fuel. C108_what_depends_on_the_start shows what does not carry over."
  },
  {
   "property": "C109",
   "status": "proved",
   "theorems": [
    "Verif.Props.Curve.C109_intersections",
    "Verif.Props.Curve.C109_find_two",
    "Verif.Props.Curve.C109_closest_ray",
    "Verif.Props.Curve.C109_box",
    "Verif.Props.Curve.C109_convex_hull",
    "Verif.Props.Curve.C109_reversed",
    "Verif.Props.Curve.C109_other_start",
    "Verif.Props.Curve.C109_inserted_point",
    "Verif.Props.Curve.C109_inserted_points",
    "Verif.Props.Curve.C109_rdp_zero",
    "Verif.Props.Curve.C109_discretized",
    "Verif.Props.Curve.C109_discretized3",
    "Verif.Props.Curve.C109_ray_along_a_segment"
   ],
   "note": "Exact arithmetic (ordered field). SameCurve is stated with OnPolyline, the set of the points on the segments. C109_reversed, C109_other_start, C109_inserted_point(s), C109_discretized(3), C109_rdp_zero are the ways to obtain it; C109_ray_along_a_segment shows why closest_ray_intersection needs its hypothesis."
  },
  {
   "property": "C110",
   "status": "proved",
   "theorems": [
    "Verif.Props.BoxHull.C110_box_hull_is_a_hull",
    "Verif.Props.BoxHull.C110_box_of_box_hull",
    "Verif.Props.BoxHull.C110_containment_agrees",
    "Verif.Props.BoxHull.C110_hull_in_box",
    "Verif.Props.BoxHull.C110_nested_hulls_nested_boxes",
    "Verif.Props.BoxHull.C110_flat_boxes",
    "Verif.Props.BoxHull.C110_box_test_on_floats",
    "Verif.Props.BoxHull.C110_containment_agrees_on_floats",
    "Verif.Props.BoxHull.C110_contains_hull_on_floats",
    "Verif.Props.BoxHull.C110_hull_in_box_on_floats"
   ],
   "note": "Exact arithmetic (ordered field). The theorems named _on_floats are about IEEE floats on a good grid. C110_flat_boxes shows what goes wrong without width or height. That the box of a hull is the box of its points is C63_same_bounding_box."
  },
  {
   "property": "C111",
   "status": "proved",
   "theorems": [
    "Verif.Props.HullAgree.C111_inner_points_do_not_matter",
    "Verif.Props.HullAgree.C111_only_the_set_matters",
    "Verif.Props.HullAgree.C111_functions_agree",
    "Verif.Props.HullAgree.C111_indexed_functions_agree",
    "Verif.Props.HullAgree.C111_hull_of_hull",
    "Verif.Props.HullAgree.C111_union_of_hulls",
    "Verif.Props.HullAgree.C111_same_box"
   ],
   "note": "IEEE floats of any format, rounding included. Same corners means the same exact points: the results may differ in the sign of zeros if points are repeated. atan2, the sorts and the grid are those of C72-C74 and C85; convex_hull_par returns what indexed_graham_scan returns in the cases of C85."
  },
  {
   "property": "C112",
   "status": "proved",
   "theorems": [
    "Verif.Props.SweepParts.C112_on_some_of_the_lines",
    "Verif.Props.SweepParts.C112_ignoring_end_points",
    "Verif.Props.SweepParts.C112_stop_at_first",
    "Verif.Props.SweepParts.C112_indexed",
    "Verif.Props.SweepParts.C112_self_intersecting",
    "Verif.Props.SweepParts.C112_a_further_line_hides_a_crossing"
   ],
   "note": "Exact arithmetic (ordered field). A selection is an injective map of indices; the conditions are those of C59 (SweepPosition, GeneralPosition) and are needed for all lines only."
  },
  {
   "property": "C113",
   "status": "proved",
   "theorems": [
    "Verif.Props.Simple.C113_short_line_strings_on_floats",
    "Verif.Props.Simple.C113_short_line_strings_that_move_ahead_on_floats",
    "Verif.Props.Simple.C113_short_hulls_on_floats",
    "Verif.Props.Simple.C113_box_on_floats",
    "Verif.Props.Simple.C113_short_line_strings",
    "Verif.Props.Simple.C113_short_line_strings_by_slopes",
    "Verif.Props.Simple.C113_short_line_strings_that_move_ahead",
    "Verif.Props.Simple.C113_short_hulls",
    "Verif.Props.Simple.C113_box",
    "Verif.Props.Simple.C113_long_line_strings",
    "Verif.Props.Simple.C113_line_strings_that_move_ahead",
    "Verif.Props.Simple.C113_simplified_line_strings_that_move_ahead",
    "Verif.Props.Simple.C113_hulls",
    "Verif.Props.Simple.C113_short_exceptions"
   ],
   "note": "Exact arithmetic (ordered field). MovesAhead is about a fixed direction d: d.p grows from point to point. The theorems ..._on_floats are about Flt f with IEEE rounding and the grid of C83 (spacing at least 1, 1024 B^4 <= 2^prec). The exceptions of short line strings are C24s finding about intersection_point3."
  },
  {
   "property": "C114",
   "status": "proved",
   "theorems": [
    "Verif.Props.RdpExtremes.C114_rdp2_removes_nothing_on_floats",
    "Verif.Props.RdpExtremes.C114_rdp2_removes_everything_on_floats",
    "Verif.Props.RdpExtremes.C114_rdp3_removes_nothing_on_floats",
    "Verif.Props.RdpExtremes.C114_rdp3_removes_everything_on_floats",
    "Verif.Props.RdpExtremes.C114_hull_keeps_its_corners_on_floats",
    "Verif.Props.RdpExtremes.C114_rdp2_removes_everything",
    "Verif.Props.RdpExtremes.C114_rdp3_removes_everything",
    "Verif.Props.RdpExtremes.C114_rdp2_removes_nothing",
    "Verif.Props.RdpExtremes.C114_rdp3_removes_nothing",
    "Verif.Props.RdpExtremes.C114_hull_keeps_its_corners",
    "Verif.Props.RdpExtremes.C114_no_three_points_collinear",
    "Verif.Props.RdpExtremes.C114_large_tolerance",
    "Verif.Props.RdpExtremes.C114_indexed2_removes_nothing",
    "Verif.Props.RdpExtremes.C114_indexed2_removes_everything",
    "Verif.Props.RdpExtremes.C114_indexed3_removes_nothing",
    "Verif.Props.RdpExtremes.C114_indexed3_removes_everything",
    "Verif.Props.RdpExtremes.C114_indexed_hull_keeps_its_corners"
   ],
   "note": "Exact arithmetic (ordered field). The distances are those of the independent specification (the minimum over the segment in 2D, over the line in 3D), not of the code. The theorems ..._on_floats are about Flt f with IEEE rounding and the grid of C80."
  },
  {
   "property": "C115",
   "status": "proved",
   "theorems": [
    "Verif.Props.VwRefine.C115_vw2_inserted_points_go_first_on_floats",
    "Verif.Props.VwRefine.C115_vw2_undoes_insertion_on_floats",
    "Verif.Props.VwRefine.C115_vw3_inserted_points_go_first_on_floats",
    "Verif.Props.VwRefine.C115_vw3_undoes_insertion_on_floats",
    "Verif.Props.VwRefine.C115_vw2_inserted_points_go_first",
    "Verif.Props.VwRefine.C115_vw2_undoes_insertion",
    "Verif.Props.VwRefine.C115_vw3_inserted_points_go_first",
    "Verif.Props.VwRefine.C115_vw3_undoes_insertion",
    "Verif.Props.VwRefine.C115_vw2_undoes_discretize",
    "Verif.Props.VwRefine.C115_vw3_undoes_discretize",
    "Verif.Props.VwRefine.C115_closed_line_strings_are_opened",
    "Verif.Props.VwRefine.C115_vw2_closed_inserted_points_go_first",
    "Verif.Props.VwRefine.C115_vw2_closed_undoes_insertion",
    "Verif.Props.VwRefine.C115_vw2_closed_undoes_discretize",
    "Verif.Props.VwRefine.C115_vw2_closed_inserted_points_go_first_on_floats",
    "Verif.Props.VwRefine.C115_vw2_closed_undoes_insertion_on_floats"
   ],
   "note": "Exact arithmetic (ordered field). What insertion means is an independent inductive specification (Inserted); that a line string turns at every corner is stated with the cross product of the specification (2D) and with Heron's formula (3D), not with the code. The theorems ..._on_floats are about Flt f with IEEE rounding and the grid of C80. The priority queue is any function that returns a least element."
  }
 ]
}
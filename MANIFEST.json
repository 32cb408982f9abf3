{
 "claims": [
  {
   "property": "C01",
   "status": "proved",
   "theorems": [
    "Rene.C01_segment_locate"
   ],
   "note": ""
  },
  {
   "property": "C02",
   "status": "proved",
   "theorems": [
    "Rene.C02_segment_relate",
    "Rene.C02_assertion_never_fails"
   ],
   "note": ""
  },
  {
   "property": "C03",
   "status": "proved",
   "theorems": [
    "Rene.C03_relate_complement"
   ],
   "note": ""
  },
  {
   "property": "C04",
   "status": "proved",
   "theorems": [
    "Rene.C04_complement"
   ],
   "note": ""
  },
  {
   "property": "C05",
   "status": "proved",
   "theorems": [
    "Rene.C05_intersect",
    "Rene.C05_intersect_reg"
   ],
   "note": ""
  },
  {
   "property": "C06",
   "status": "proved",
   "theorems": [
    "Rene.C06_unite"
   ],
   "note": ""
  },
  {
   "property": "C07",
   "status": "proved",
   "theorems": [
    "Rene.C07_subtract"
   ],
   "note": ""
  },
  {
   "property": "C08",
   "status": "proved",
   "theorems": [
    "Rene.C08_symmetric_subtract"
   ],
   "note": ""
  },
  {
   "property": "C09",
   "status": "proved",
   "theorems": [
    "Rene.C09_intersect_multisegmental"
   ],
   "note": ""
  },
  {
   "property": "C10",
   "status": "proved",
   "theorems": [
    "Rene.C10_unite_multisegmental"
   ],
   "note": ""
  },
  {
   "property": "C11",
   "status": "proved",
   "theorems": [
    "Rene.C11_subtract_multisegmental",
    "Rene.C11_overlap_needed"
   ],
   "note": "Under NoOverlap (no two components of the minuend overlap collinearly); C11_overlap_needed shows the hypothesis cannot be dropped."
  },
  {
   "property": "C12",
   "status": "proved",
   "theorems": [
    "Rene.C12_box_predicates"
   ],
   "note": ""
  },
  {
   "property": "C13",
   "status": "proved",
   "theorems": [
    "Rene.C13_box_relate",
    "Rene.C13_box_relate_complement",
    "Rene.C13_degenerate_inconsistent"
   ],
   "note": "C13_degenerate_inconsistent records a finding: for degenerate boxes the predicates and relate_to disagree."
  },
  {
   "property": "C14",
   "status": "proved",
   "theorems": [
    "Rene.C14_bounding_box_tight",
    "Rene.C14_polygon_bounding_box_tight"
   ],
   "note": ""
  },
  {
   "property": "C15",
   "status": "proved",
   "theorems": [
    "Rene.C15_shortcuts",
    "Rene.C15_shortcuts_geometries"
   ],
   "note": ""
  },
  {
   "property": "C16",
   "status": "proved",
   "theorems": [
    "Rene.C16_point_order"
   ],
   "note": ""
  },
  {
   "property": "C17",
   "status": "proved",
   "theorems": [
    "Rene.C17_segment_eq",
    "Rene.C17_segment_eq_equivalence"
   ],
   "note": ""
  },
  {
   "property": "C18",
   "status": "proved",
   "theorems": [
    "Rene.C18_contour_eq",
    "Rene.C18_contour_eq_equivalence"
   ],
   "note": ""
  },
  {
   "property": "C19",
   "status": "proved",
   "theorems": [
    "Rene.C19_contour_hash",
    "Rene.C19_degenerate_contour_hash_differs"
   ],
   "note": "C19_degenerate_contour_hash_differs proves the negative half of the property."
  },
  {
   "property": "C20",
   "status": "proved",
   "theorems": [
    "Rene.C20_geometry_eq",
    "Rene.C20_multisegment_eq",
    "Rene.C20_multisegment_eq_equivalence",
    "Rene.C20_polygon_eq",
    "Rene.C20_multipolygon_eq"
   ],
   "note": ""
  },
  {
   "property": "C21",
   "status": "proved",
   "theorems": [
    "Rene.C21_locate"
   ],
   "note": ""
  },
  {
   "property": "C22",
   "status": "proved",
   "theorems": [
    "Rene.C22_region_boundary",
    "Rene.C22_region_invariance",
    "Rene.C22_equal_contours",
    "Rene.C22_outside_bounding_box"
   ],
   "note": ""
  },
  {
   "property": "C23",
   "status": "proved",
   "theorems": [
    "Rene.C23_constant_on_segment",
    "Rene.C23_constant_on_paths",
    "Rene.C23_flips_across_edge",
    "Rene.C23_interior_is_enclosed"
   ],
   "note": ""
  },
  {
   "property": "C24",
   "status": "proved",
   "theorems": [
    "Rene.C24_polygon_locate",
    "Rene.C24_valid_polygon_locate",
    "Rene.C24_multipolygon_locate"
   ],
   "note": ""
  },
  {
   "property": "C25",
   "status": "proved",
   "theorems": [
    "Rene.C25_orientation_area",
    "Rene.C25_orientation",
    "Rene.C25_orientation_nondegenerate",
    "Rene.C25_triangle_orientation",
    "Rene.C25_oriented_segments"
   ],
   "note": "C25_orientation_area: for every simple contour the orientation is the sign of the shoelace area."
  },
  {
   "property": "C26",
   "status": "proved",
   "theorems": [
    "Rene.C26_orient"
   ],
   "note": ""
  },
  {
   "property": "C27",
   "status": "proved",
   "theorems": [
    "Rene.C27_intersection_point"
   ],
   "note": ""
  },
  {
   "property": "C28",
   "status": "proved",
   "theorems": [
    "Rene.C28_in_circle",
    "Rene.C28_circumcenter_exists"
   ],
   "note": ""
  },
  {
   "property": "C29",
   "status": "proved",
   "theorems": [
    "Rene.C29_permute_rearranges",
    "Rene.C29_permute_injective",
    "Rene.C29_permute_surjective",
    "Rene.C29_permute_natural"
   ],
   "note": ""
  },
  {
   "property": "C30",
   "status": "proved",
   "theorems": [
    "Rene.C30_seed_accepted",
    "Rene.C30_seed_errors"
   ],
   "note": ""
  },
  {
   "property": "C31",
   "status": "proved",
   "theorems": [
    "Rene.C31_constructors"
   ],
   "note": ""
  },
  {
   "property": "C32",
   "status": "proved",
   "theorems": [
    "Rene.C32_contour_segments",
    "Rene.C32_indexing",
    "Rene.C32_segments_count_index"
   ],
   "note": ""
  },
  {
   "property": "C33",
   "status": "proved",
   "theorems": [
    "Rene.C33_empty_operators",
    "Rene.C33_empty_queries",
    "Rene.C33_contains_iff"
   ],
   "note": ""
  },
  {
   "property": "C34",
   "status": "proved",
   "theorems": [
    "Rene.C34_no_assertion_fails",
    "Rene.C34_terminates",
    "Rene.C34_sweep_line_sorted",
    "Rene.C34_order",
    "Rene.C34_refines",
    "Rene.C34_run"
   ],
   "note": ""
  },
  {
   "property": "C35",
   "status": "proved",
   "theorems": [
    "Rene.C35_intersect",
    "Rene.C35_unite",
    "Rene.C35_subtract",
    "Rene.C35_symmetric_subtract",
    "Rene.C35_subtract_from_segment",
    "Rene.C35_symmetric_subtract_from_segment",
    "Rene.C35_symmetric_subtract_segment"
   ],
   "note": ""
  },
  {
   "property": "C36",
   "status": "proved",
   "theorems": [
    "Rene.C36_multisegment_valid_iff",
    "Rene.C36_multisegment_valid_sound",
    "Rene.C36_contour_valid_iff",
    "Rene.C36_contour_noded_total",
    "Rene.C36_assert_finding"
   ],
   "note": "C36_assert_finding: for several collinear segments with a common start is_valid raises AssertionError instead of returning False (the iff is about the answer True)."
  },
  {
   "property": "C37",
   "status": "proved",
   "theorems": [
    "Rene.C37_contour",
    "Rene.C37_contour_total",
    "Rene.C37_multisegment",
    "Rene.C37_multisegment_direction",
    "Rene.C37_straight_angle_answers_cross"
   ],
   "note": ""
  },
  {
   "property": "C38",
   "status": "proved",
   "theorems": [
    "Rene.C38_edge_algebra",
    "Rene.C38_reachable_mesh",
    "Rene.C38_splice",
    "Rene.C38_splice_involution",
    "Rene.C38_create",
    "Rene.C38_connect",
    "Rene.C38_delete",
    "Rene.C38_swap",
    "Rene.C38_boundary_walk",
    "Rene.C38_candidate_loops_terminate",
    "Rene.C38_delaunay_mesh",
    "Rene.C38_triangles",
    "Rene.C38_boundary_of_one_point",
    "Rene.C38_example_swap",
    "Rene.C38_example_delaunay"
   ],
   "note": ""
  },
  {
   "property": "C39",
   "status": "proved",
   "theorems": [
    "Rene.C39_locate_terminates",
    "Rene.C39_height",
    "Rene.C39_multisegment_has_no_interior"
   ],
   "note": ""
  },
  {
   "property": "C40",
   "status": "proved",
   "theorems": [
    "Rene.C40_shrink_collinear",
    "Rene.C40_first_vertex_kept"
   ],
   "note": ""
  },
  {
   "property": "C41",
   "status": "proved",
   "theorems": [
    "Rene.C41_border_piece_depends_on_box"
   ],
   "note": ""
  },
  {
   "property": "C42",
   "status": "proved",
   "theorems": [
    "Rene.C42_deduplicate",
    "Rene.C42_ceil_log2",
    "Rene.C42_base_cases"
   ],
   "note": ""
  },
  {
   "property": "C43",
   "status": "proved",
   "theorems": [
    "Rene.C43_operators",
    "Rene.C43_expressions",
    "Rene.C43_determined",
    "Rene.C43_identities",
    "Rene.C43_partition",
    "Rene.C43_commutative"
   ],
   "note": ""
  },
  {
   "property": "C44",
   "status": "proved",
   "theorems": [
    "Rene.C44_triangle_interior_missed"
   ],
   "note": ""
  },
  {
   "property": "C45",
   "status": "proved",
   "theorems": [
    "Rene.C45_touching_segments_depend_on_seed"
   ],
   "note": ""
  },
  {
   "property": "C46",
   "status": "proved",
   "theorems": [
    "Rene.C46_segment_polygon"
   ],
   "note": ""
  },
  {
   "property": "C47",
   "status": "proved",
   "theorems": [
    "Rene.C47_depends_on_vertices_direction",
    "Rene.C47_depends_on_segment_direction",
    "Rene.C47_touch_with_interior_points"
   ],
   "note": ""
  },
  {
   "property": "C48",
   "status": "proved",
   "theorems": [
    "Rene.C48_segment_polygon",
    "Rene.C48_polygon_segment",
    "Rene.C48_multisegmental_polygon",
    "Rene.C48_polygon_multisegmental",
    "Rene.C48_segment_multipolygon",
    "Rene.C48_multipolygon_segment",
    "Rene.C48_multisegmental_multipolygon",
    "Rene.C48_multipolygon_multisegmental"
   ],
   "note": ""
  },
  {
   "property": "C49",
   "status": "proved",
   "theorems": [
    "Rene.C49_multisegmental_polygon",
    "Rene.C49_multisegmental_multipolygon",
    "Rene.C49_segment_polygon",
    "Rene.C49_segment_multipolygon"
   ],
   "note": ""
  },
  {
   "property": "C50",
   "status": "proved",
   "theorems": [
    "Rene.C50_subtract_polygon_polygon",
    "Rene.C50_subtract_polygon_multipolygon",
    "Rene.C50_subtract_multipolygon_polygon",
    "Rene.C50_subtract_multipolygon_multipolygon",
    "Rene.C50_intersect_polygon_polygon",
    "Rene.C50_intersect_polygon_multipolygon",
    "Rene.C50_intersect_multipolygon_polygon",
    "Rene.C50_intersect_multipolygon_multipolygon",
    "Rene.C50_unite_polygon_polygon",
    "Rene.C50_unite_polygon_multipolygon",
    "Rene.C50_unite_multipolygon_polygon",
    "Rene.C50_unite_multipolygon_multipolygon",
    "Rene.C50_symmetric_subtract_polygon_polygon",
    "Rene.C50_symmetric_subtract_polygon_multipolygon",
    "Rene.C50_symmetric_subtract_multipolygon_polygon",
    "Rene.C50_symmetric_subtract_multipolygon_multipolygon"
   ],
   "note": ""
  },
  {
   "property": "C51",
   "status": "proved",
   "theorems": [
    "Rene.C51_subtract_polygon_polygon",
    "Rene.C51_subtract_polygon_multipolygon",
    "Rene.C51_subtract_multipolygon_polygon",
    "Rene.C51_subtract_multipolygon_multipolygon",
    "Rene.C51_intersect_polygon_polygon",
    "Rene.C51_intersect_polygon_multipolygon",
    "Rene.C51_intersect_multipolygon_polygon",
    "Rene.C51_intersect_multipolygon_multipolygon",
    "Rene.C51_unite_polygon_polygon",
    "Rene.C51_unite_polygon_multipolygon",
    "Rene.C51_unite_multipolygon_polygon",
    "Rene.C51_unite_multipolygon_multipolygon",
    "Rene.C51_symmetric_subtract_polygon_polygon",
    "Rene.C51_symmetric_subtract_polygon_multipolygon",
    "Rene.C51_symmetric_subtract_multipolygon_polygon",
    "Rene.C51_symmetric_subtract_multipolygon_multipolygon"
   ],
   "note": ""
  },
  {
   "property": "C52",
   "status": "proved",
   "theorems": [
    "Rene.C52_hole_in_wrong_polygon"
   ],
   "note": "C52_hole_in_wrong_polygon proves the negation of what one would rely on: valid operands whose difference contains a point of the subtrahend."
  },
  {
   "property": "C53",
   "status": "proved",
   "theorems": [
    "Rene.C53_relate",
    "Rene.C53_relate_contours",
    "Rene.C53_equal_of_proper_part",
    "Rene.C53_not_equal_to_itself",
    "Rene.C53_assertion_error",
    "Rene.C53_touch_or_cross"
   ],
   "note": ""
  },
  {
   "property": "C54",
   "status": "proved",
   "theorems": [
    "Rene.C54_unique",
    "Rene.C54_relate_polygon_polygon",
    "Rene.C54_relate_polygon_multipolygon",
    "Rene.C54_relate_multipolygon_polygon",
    "Rene.C54_relate_multipolygon_multipolygon",
    "Rene.C54_orientation"
   ],
   "note": ""
  },
  {
   "property": "C55",
   "status": "proved",
   "theorems": [
    "Rene.C55_polygon_apart",
    "Rene.C55_polygon_segment_apart",
    "Rene.C55_multipolygon_segment_apart",
    "Rene.C55_direction",
    "Rene.C55_outside_segment",
    "Rene.C55_square_within_segment",
    "Rene.C55_stale_edge",
    "Rene.C55_assertion",
    "Rene.C55_outside_point_within",
    "Rene.C55_value_error"
   ],
   "note": ""
  },
  {
   "property": "C56",
   "status": "proved",
   "theorems": [
    "Rene.C56_points",
    "Rene.C56_triangles",
    "Rene.C56_no_crossings_left",
    "Rene.C56_example",
    "Rene.C56_counterclockwise_hole",
    "Rene.C56_not_delaunay",
    "Rene.C56_touching_hole"
   ],
   "note": ""
  },
  {
   "property": "C57",
   "status": "proved",
   "theorems": [
    "Rene.C57_subtract_polygon_polygon",
    "Rene.C57_subtract_polygon_multipolygon",
    "Rene.C57_subtract_multipolygon_polygon",
    "Rene.C57_subtract_multipolygon_multipolygon",
    "Rene.C57_intersect_polygon_polygon",
    "Rene.C57_intersect_polygon_multipolygon",
    "Rene.C57_intersect_multipolygon_polygon",
    "Rene.C57_intersect_multipolygon_multipolygon",
    "Rene.C57_unite_polygon_polygon",
    "Rene.C57_unite_polygon_multipolygon",
    "Rene.C57_unite_multipolygon_polygon",
    "Rene.C57_unite_multipolygon_multipolygon",
    "Rene.C57_symmetric_subtract_polygon_polygon",
    "Rene.C57_symmetric_subtract_polygon_multipolygon",
    "Rene.C57_symmetric_subtract_multipolygon_polygon",
    "Rene.C57_symmetric_subtract_multipolygon_multipolygon",
    "Rene.C57_subtract_holeless",
    "Rene.C57_intersect_holeless",
    "Rene.C57_unite_holeless",
    "Rene.C57_symmetric_subtract_holeless"
   ],
   "note": ""
  },
  {
   "property": "C58",
   "status": "proved",
   "theorems": [
    "Rene.C58_subtract_holeless",
    "Rene.C58_intersect_holeless",
    "Rene.C58_unite_holeless",
    "Rene.C58_symmetric_subtract_holeless",
    "Rene.C58_subtract_polygon_polygon",
    "Rene.C58_subtract_polygon_multipolygon",
    "Rene.C58_subtract_multipolygon_polygon",
    "Rene.C58_subtract_multipolygon_multipolygon",
    "Rene.C58_intersect_polygon_polygon",
    "Rene.C58_intersect_polygon_multipolygon",
    "Rene.C58_intersect_multipolygon_polygon",
    "Rene.C58_intersect_multipolygon_multipolygon",
    "Rene.C58_unite_polygon_polygon",
    "Rene.C58_unite_polygon_multipolygon",
    "Rene.C58_unite_multipolygon_polygon",
    "Rene.C58_unite_multipolygon_multipolygon",
    "Rene.C58_symmetric_subtract_polygon_polygon",
    "Rene.C58_symmetric_subtract_polygon_multipolygon",
    "Rene.C58_symmetric_subtract_multipolygon_polygon",
    "Rene.C58_symmetric_subtract_multipolygon_multipolygon",
    "Rene.C58_invalid_result"
   ],
   "note": ""
  },
  {
   "property": "C59",
   "status": "proved",
   "theorems": [
    "Rene.C59_subtract_holeless",
    "Rene.C59_intersect_holeless",
    "Rene.C59_unite_holeless",
    "Rene.C59_symmetric_subtract_holeless",
    "Rene.C59_subtract_polygon_polygon",
    "Rene.C59_subtract_polygon_multipolygon",
    "Rene.C59_subtract_multipolygon_polygon",
    "Rene.C59_subtract_multipolygon_multipolygon",
    "Rene.C59_intersect_polygon_polygon",
    "Rene.C59_intersect_polygon_multipolygon",
    "Rene.C59_intersect_multipolygon_polygon",
    "Rene.C59_intersect_multipolygon_multipolygon",
    "Rene.C59_unite_polygon_polygon",
    "Rene.C59_unite_polygon_multipolygon",
    "Rene.C59_unite_multipolygon_polygon",
    "Rene.C59_unite_multipolygon_multipolygon",
    "Rene.C59_symmetric_subtract_polygon_polygon",
    "Rene.C59_symmetric_subtract_polygon_multipolygon",
    "Rene.C59_symmetric_subtract_multipolygon_polygon",
    "Rene.C59_symmetric_subtract_multipolygon_multipolygon"
   ],
   "note": ""
  },
  {
   "property": "C60",
   "status": "proved",
   "theorems": [
    "Rene.C60_intersect_swap_holeless",
    "Rene.C60_unite_swap_holeless",
    "Rene.C60_symmetric_subtract_swap_holeless",
    "Rene.C60_intersect_swap_polygon_polygon",
    "Rene.C60_intersect_swap_polygon_multipolygon",
    "Rene.C60_intersect_swap_multipolygon_multipolygon",
    "Rene.C60_unite_swap_polygon_polygon",
    "Rene.C60_unite_swap_polygon_multipolygon",
    "Rene.C60_unite_swap_multipolygon_multipolygon",
    "Rene.C60_symmetric_subtract_swap_polygon_polygon",
    "Rene.C60_symmetric_subtract_swap_polygon_multipolygon",
    "Rene.C60_symmetric_subtract_swap_multipolygon_multipolygon",
    "Rene.C60_intersect_self_polygon",
    "Rene.C60_intersect_self_multipolygon",
    "Rene.C60_unite_self_polygon",
    "Rene.C60_unite_self_multipolygon",
    "Rene.C60_subtract_self_polygon",
    "Rene.C60_subtract_self_multipolygon",
    "Rene.C60_symmetric_subtract_self_polygon",
    "Rene.C60_symmetric_subtract_self_multipolygon"
   ],
   "note": ""
  },
  {
   "property": "C61",
   "status": "proved",
   "theorems": [
    "Rene.C61_expressions",
    "Rene.C61_identities",
    "Rene.C61_partition",
    "Rene.C61_union_without_intersection",
    "Rene.C61_both_differences"
   ],
   "note": ""
  },
  {
   "property": "C62",
   "status": "proved",
   "theorems": [
    "Rene.C62_multisegment_located",
    "Rene.C62_multisegment_contains"
   ],
   "note": ""
  },
  {
   "property": "C63",
   "status": "proved",
   "theorems": [
    "Rene.C63_polygon_boundary",
    "Rene.C63_polygon_seed_free"
   ],
   "note": ""
  },
  {
   "property": "C64",
   "status": "proved",
   "theorems": [
    "Rene.C64_polygon_interior",
    "Rene.C64_polygon_interior_missed",
    "Rene.C64_polygon_exact_iff"
   ],
   "note": ""
  },
  {
   "property": "C65",
   "status": "proved",
   "theorems": [
    "Rene.C65_text_determines_geometry",
    "Rene.C65_fractions",
    "Rene.C65_points_and_boxes"
   ],
   "note": ""
  },
  {
   "property": "C66",
   "status": "proved",
   "theorems": [
    "Rene.C66_text_rebuilds",
    "Rene.C66_points_and_boxes"
   ],
   "note": ""
  }
 ]
}
{
 "claims": [
  {
   "property": "C01",
   "status": "proved",
   "theorems": [
    "OM.C01_boundary_edges_exact"
   ],
   "note": "for every row order of np.unique; triangles with three different corners"
  },
  {
   "property": "C02",
   "status": "proved",
   "theorems": [
    "OM.C02_boundary_degree_even"
   ],
   "note": ""
  },
  {
   "property": "C03",
   "status": "proved",
   "theorems": [
    "OM.C03_winded_is_trail",
    "OM.C03_winded_is_closed",
    "OM.C03_winded_is_whole_loop",
    "OM.C03_no_boundary_raises"
   ],
   "note": "termination: fuel (rows+1) proved sufficient"
  },
  {
   "property": "C04",
   "status": "partial",
   "theorems": [
    "OM.C04_poly_edges_exact",
    "OM.C04_poly_edges_complete_partial",
    "OM.C04_last_segment_missing",
    "OM.C04_no_separator_raises"
   ],
   "note": "the code drops the last segment of features that are not closed twice: C04_last_segment_missing is the counterexample; exact output characterised for all inputs"
  },
  {
   "property": "C05",
   "status": "partial",
   "theorems": [
    "OM.C05_fix_mesh_returns",
    "OM.C05_fix_mesh_wellformed",
    "OM.C05_vertices_distinct_partial",
    "OM.C05_vertices_distinct_nonneg_partial",
    "OM.C05_signed_zero_duplicates"
   ],
   "note": "all parts proved except that two vertices rounded to zero from different sides are kept apart by the code (-0.0 and 0.0 differ as bytes): counterexample C05_signed_zero_duplicates"
  },
  {
   "property": "C06",
   "status": "proved",
   "theorems": [
    "OM.C06_fix_mesh_geometry",
    "OM.C06_fix_mesh_geometry_exact"
   ],
   "note": ""
  },
  {
   "property": "C07",
   "status": "proved",
   "theorems": [
    "OM.C07_fix_mesh_ccw",
    "OM.C07_fix_mesh_area"
   ],
   "note": ""
  },
  {
   "property": "C08",
   "status": "proved",
   "theorems": [
    "OM.C08_merged_within_tolerance",
    "OM.C08_identical_merged",
    "OM.C08_zero_tolerance_merges_all"
   ],
   "note": ""
  },
  {
   "property": "C09",
   "status": "partial",
   "theorems": [
    "OM.C09_vertex_map_partial",
    "OM.C09_map_wrong_delete_unused"
   ],
   "note": "holds for delete_unused=False; counterexample for delete_unused=True"
  },
  {
   "property": "C10",
   "status": "proved",
   "theorems": [
    "OM.C10_signed_area_laws",
    "OM.C10_reference_positive"
   ],
   "note": ""
  },
  {
   "property": "C11",
   "status": "partial",
   "theorems": [
    "OM.C11_quality_scales_linearly",
    "OM.C11_equilateral_quality",
    "OM.C11_quality_above_one",
    "OM.C11_quality_invariance_partial",
    "OM.C11_quality_positive_partial",
    "OM.C11_exact"
   ],
   "note": "the claim is false: the code omits a square root; value for an equilateral triangle of side s is s/sqrt 3. C11_exact gives the value for every triple of points (64 A^3/(s^2 abc), NaN when two corners coincide, 0 for three different collinear points)"
  },
  {
   "property": "C12",
   "status": "partial",
   "theorems": [
    "OM.C12_face_table_sound",
    "OM.C12_face_table_exact_partial",
    "OM.C12_third_neighbour_missing",
    "OM.C12_row_count"
   ],
   "note": "exact when no edge belongs to more than two triangles; otherwise neighbours are missed (counterexample): each edge with other triangles then gives one or two rows (C12_row_count); sound for every table"
  },
  {
   "property": "C13",
   "status": "partial",
   "theorems": [
    "OM.C13_vertex_table_exact_partial",
    "OM.C13_unused_vertex_shifts"
   ],
   "note": "exact when all vertices are used; counterexample with an unused vertex"
  },
  {
   "property": "C14",
   "status": "proved",
   "theorems": [
    "OM.C14_component_search_exact"
   ],
   "note": ""
  },
  {
   "property": "C15",
   "status": "proved",
   "theorems": [
    "OM.C15_exterior_keeps_large_components",
    "OM.C15_exterior_seed_independent"
   ],
   "note": ""
  },
  {
   "property": "C16",
   "status": "proved",
   "theorems": [
    "OM.C16_delete_interior"
   ],
   "note": "for meshes whose triangles have three different corners"
  },
  {
   "property": "C17",
   "status": "proved",
   "theorems": [
    "OM.C17_terminates",
    "OM.C17_boundary_traversable",
    "OM.C17_only_removes",
    "OM.C17_only_removes_exact",
    "OM.C17_traversable_unchanged",
    "OM.C17_threshold_one_raises"
   ],
   "note": "C17_only_removes needs valid indices and a positive tolerance; C17_traversable_unchanged needs triangles with three different corners"
  },
  {
   "property": "C18",
   "status": "partial",
   "theorems": [
    "OM.C18_terminates",
    "OM.C18_no_single_neighbour",
    "OM.C18_no_single_neighbour_input",
    "OM.C18_no_single_neighbour_partial",
    "OM.C18_result_any",
    "OM.C18_unchanged",
    "OM.C18_unchanged_any",
    "OM.C18_single_pass",
    "OM.C18_single_pass_any",
    "OM.C18_two_triangles_erased",
    "OM.C18_three_on_edge_deleted",
    "OM.C18_repeated_kept"
   ],
   "note": "termination for all meshes; the result has no singly connected triangle for all meshes without repeated triangles and with three different corners (any number of triangles on an edge), false for repeated triangles (C18_repeated_kept); the unchanged claim is false for three triangles on one edge (C18_three_on_edge_deleted), true where no triangle has exactly one edge in common with others; the single pass is exact for at most two triangles per edge and described for any number"
  },
  {
   "property": "C19",
   "status": "proved",
   "theorems": [
    "OM.C19_delete_boundary_faces"
   ],
   "note": "for meshes with valid indices, at least one vertex and triangles with three different corners"
  },
  {
   "property": "C20",
   "status": "partial",
   "theorems": [
    "OM.C20_returns",
    "OM.C20_laplacian_steps",
    "OM.C20_laplacian_steps_all",
    "OM.C20_fixed_vertices",
    "OM.C20_hull",
    "OM.C20_unused_vertex_unchanged",
    "OM.C20_empty_pfix_raises",
    "OM.C20_degenerate_boundary_moves"
   ],
   "note": "proved for every mesh without degenerate triangles and every list of fixed points that is not empty; an empty list raises (C20_empty_pfix_raises) and with a degenerate triangle a boundary vertex can move (C20_degenerate_boundary_moves); what happens with degenerate triangles is described exactly (C20_laplacian_steps_all)"
  },
  {
   "property": "C21",
   "status": "proved",
   "theorems": [
    "OM.C21_terminates",
    "OM.C21_valid_mesh",
    "OM.C21_inside_input",
    "OM.C21_two_triangles_raise"
   ],
   "note": "termination without conditions; the shape of the result if it returns a mesh, as the property says"
  },
  {
   "property": "C22",
   "status": "partial",
   "theorems": [
    "OM.C22_section_ends_deep",
    "OM.C22_sections_of_runs_partial",
    "OM.C22_short_run_raises",
    "OM.C22_far_pair_raises",
    "OM.C22_close_pair_lost",
    "OM.C22_end_before_start",
    "OM.C22_exact"
   ],
   "note": "end nodes are deep boundary nodes for every mesh; the result is characterised for all patterns of deep nodes (C22_exact), with the exact condition for the error; the claim holds if every run of deep nodes has at least three members; errors, lost and reversed sections otherwise are shown by counterexamples"
  },
  {
   "property": "C23",
   "status": "proved",
   "theorems": [
    "OM.C23_limiter_lowers",
    "OM.C23_negative_field_raised"
   ],
   "note": "fields of non-negative sizes; C23_negative_field_raised shows why"
  },
  {
   "property": "C24",
   "status": "partial",
   "theorems": [
    "OM.C24_converged_graded_partial",
    "OM.C24_antidiagonal_bound_partial",
    "OM.C24_antidiagonal_violated"
   ],
   "note": "holds for horizontal, vertical and (1,1)-diagonal neighbours; false on the other diagonal (neighbour 8 of the source repeats neighbour 5): counterexample"
  },
  {
   "property": "C25",
   "status": "partial",
   "theorems": [
    "OM.C25_graded_unchanged",
    "OM.C25_converged_not_fixed"
   ],
   "note": "a graded field is left alone; but a converged field need not be a fixed point (counterexample)"
  },
  {
   "property": "C26",
   "status": "proved",
   "theorems": [
    "OM.C26_indices_in_range",
    "OM.C26_limiter_total"
   ],
   "note": ""
  },
  {
   "property": "C27",
   "status": "proved",
   "theorems": [
    "OM.C27_limiter_converges"
   ],
   "note": ""
  },
  {
   "property": "C28",
   "status": "partial",
   "theorems": [
    "OM.C28_rejects",
    "OM.C28_same_lattice",
    "OM.C28_values_partial",
    "OM.C28_succeeds",
    "OM.C28_lowered_partial",
    "OM.C28_globe_rows_exchanged"
   ],
   "note": "values without the stereographic correction (with it: C104); the given grid is unchanged by construction of the model (the source copies the values); rows are exchanged for boxes around the globe (counterexample); the coordinate system of the result is the argument, not that of the grid"
  },
  {
   "property": "C29",
   "status": "partial",
   "theorems": [
    "OM.C29_bounds_partial",
    "OM.C29_idempotent_partial",
    "OM.C29_invalid_rejected",
    "OM.C29_invalid_modifies",
    "OM.C29_lower_end",
    "OM.C29_globe_fails"
   ],
   "note": "all lists of valid bands, overlapping or not; boxes around the globe have rows exchanged (counterexample); an invalid later bound raises after the grid has been changed (counterexample); the lower end of a band is open"
  },
  {
   "property": "C30",
   "status": "partial",
   "theorems": [
    "OM.C30_scalar_grid_partial",
    "OM.C30_invalid_rejected",
    "OM.C30_array_shape_not_checked"
   ],
   "note": "proved for grids given by a bounding box, spacings and a scalar value; an array of another shape is accepted and moves nodes out of the box (counterexample)"
  },
  {
   "property": "C31",
   "status": "partial",
   "theorems": [
    "OM.C31_eval_between_partial",
    "OM.C31_eval_node_partial",
    "OM.C31_eval_outside",
    "OM.C31_eval_plane",
    "OM.C31_nan_neighbour"
   ],
   "note": "boxes that do not reach around the globe, positive spacings, cells of numbers; a NaN in a neighbouring node makes the value at a node NaN (counterexample)"
  },
  {
   "property": "C32",
   "status": "partial",
   "theorems": [
    "OM.C32_idempotent_partial",
    "OM.C32_period_two",
    "OM.C32_idempotent_iff",
    "OM.C32_not_idempotent"
   ],
   "note": "holds for boxes that do not reach around the globe; otherwise first and last row are exchanged again at each call (counterexample, exact condition and period two)"
  },
  {
   "property": "C33",
   "status": "partial",
   "theorems": [
    "OM.C33_interpolate_partial",
    "OM.C33_extrapolating_source",
    "OM.C33_fill_value_lost",
    "OM.C33_extrapolate_overwrites",
    "OM.C33_touching_boxes_raise",
    "OM.C33_exact"
   ],
   "note": "the result is described exactly for every pair of grids, with the rule for ties, NaN, the mark -999 and extrapolation (C33_exact); the claim as stated is false for source values -999, for sources that extrapolate and for boxes that only touch (counterexamples)"
  },
  {
   "property": "C34",
   "status": "partial",
   "theorems": [
    "OM.C34_pointwise_minimum_partial",
    "OM.C34_order_irrelevant",
    "OM.C34_hmin",
    "OM.C34_no_positive_value",
    "OM.C34_succeeds_partial",
    "OM.C34_globe_rows_exchanged",
    "OM.C34_nan_hides",
    "OM.C34_exact",
    "OM.C34_fails_iff"
   ],
   "note": "the result and the failures are described exactly for all grids, also with NaN, in other coordinate systems and around the globe (C34_exact, C34_fails_iff); the claim as stated is false for global grids (rows exchanged) and NaN (hides the other values)"
  },
  {
   "property": "C35",
   "status": "partial",
   "theorems": [
    "OM.C35_between",
    "OM.C35_constant",
    "OM.C35_coincident",
    "OM.C35_formula",
    "OM.C35_ratios_partial",
    "OM.C35_threshold",
    "OM.C35_too_few_points"
   ],
   "note": "average properties for every valid neighbour query; dependence on ratios only while the absolute threshold for coincident points gives the same answer (counterexample), fewer data points than neighbours raise"
  },
  {
   "property": "C36",
   "status": "partial",
   "theorems": [
    "OM.C36_no_fit",
    "OM.C36_exact",
    "OM.C36_blend_partial",
    "OM.C36_hmin_wrong",
    "OM.C36_extrapolate_overwrites",
    "OM.C36_padded_box"
   ],
   "note": "C36_exact describes blend_into for all pairs of grids (when it raises, every value, hmin, also with NaN, marks and extrapolating fine grids). Partial because the source falsifies two wishes: hmin is the minimum of the padding zone only, and extrapolating fine grids overwrite coarse values (counterexamples)"
  },
  {
   "property": "C37",
   "status": "partial",
   "theorems": [
    "OM.C37_minimum_partial",
    "OM.C37_two_grids_partial",
    "OM.C37_repeatable_partial",
    "OM.C37_order_rejected",
    "OM.C37_same_lattices",
    "OM.C37_not_repeatable",
    "OM.C37_exceeds_coarse",
    "OM.C37_lists_partial",
    "OM.C37_lists_range"
   ],
   "note": "minimum of the (blended) grids proved where all give numbers; the blended grids are described for lists of any length of positive sizes (C37_lists_partial); counterexamples: a coarse sizing function is exceeded after blending, global grids give other values at the second evaluation"
  },
  {
   "property": "C38",
   "status": "partial",
   "theorems": [
    "OM.C38_values_partial",
    "OM.C38_eval_partial",
    "OM.C38_maximum_below_minimum",
    "OM.C38_negative_rate",
    "OM.C38_globe_rows_exchanged",
    "OM.C38_extrapolated_below"
   ],
   "note": "the three functions share one model; the mask of the shoreline version is treated in C92; counterexamples: limits in wrong order, negative rate, boxes around the globe, extrapolation beyond the last node"
  },
  {
   "property": "C39",
   "status": "partial",
   "theorems": [
    "OM.C39_sizes_partial",
    "OM.C39_maximum_below_minimum",
    "OM.C39_land_counts_as_depth",
    "OM.C39_latitude_in_radians",
    "OM.C39_recorded_minimum"
   ],
   "note": "bounds, order by absolute elevation and resolution of the wave; counterexamples: limits in wrong order, land, and the latitude used as radians"
  },
  {
   "property": "C40",
   "status": "proved",
   "theorems": [
    "OM.C40_affine",
    "OM.C40_constant",
    "OM.C40_linear",
    "OM.C40_sizes"
   ],
   "note": ""
  },
  {
   "property": "C41",
   "status": "partial",
   "theorems": [
    "OM.C41_adds_up",
    "OM.C41_accepted",
    "OM.C41_bandpass",
    "OM.C41_bandstop_partial",
    "OM.C41_bandstop_long_waves_partial",
    "OM.C41_bandstop_negates_short_waves",
    "OM.C41_kept_fields",
    "OM.C41_bandstop_wrong_sign"
   ],
   "note": "low-pass plus high-pass and argument checks proved; the band-stop part is false: short waves are negated (counterexample)"
  },
  {
   "property": "C42",
   "status": "proved",
   "theorems": [
    "OM.C42_contains_refl",
    "OM.C42_contains_trans",
    "OM.C42_contains_iff_points",
    "OM.C42_global_not_in_regional",
    "OM.C42_global_contains_everything"
   ],
   "note": "the equivalence with point containment for an outer box that is not global and a non-empty inner box; C42_global_contains_everything shows that a global box need not contain the points"
  },
  {
   "property": "C43",
   "status": "proved",
   "theorems": [
    "OM.C43_on_sphere",
    "OM.C43_lonlat_round_trip",
    "OM.C43_plane_round_trip"
   ],
   "note": "exact real arithmetic"
  },
  {
   "property": "C44",
   "status": "partial",
   "theorems": [
    "OM.C44_constructor_partial",
    "OM.C44_bad_tuples_accepted",
    "OM.C44_always_valid",
    "OM.C44_failed_transform_keeps",
    "OM.C44_round_trip"
   ],
   "note": "the constructor accepts more than four values and boxes without extent (counterexamples); validity with these exceptions, round trip and failure behaviour proved"
  },
  {
   "property": "C45",
   "status": "partial",
   "theorems": [
    "OM.C45_union_partial",
    "OM.C45_intersection_partial",
    "OM.C45_difference_partial",
    "OM.C45_box",
    "OM.C45_empty_raises",
    "OM.C45_nan_hides",
    "OM.C45_union_value",
    "OM.C45_intersection_value",
    "OM.C45_difference_value",
    "OM.C45_union",
    "OM.C45_intersection",
    "OM.C45_difference",
    "OM.C45_attributes",
    "OM.C45_systems_not_compared",
    "OM.C45_rectangle_attributes"
   ],
   "note": "values exact for all members, with NaN and exceptions; intersection and difference hold without conditions; the union needs numbers of all members, since NaN of one hides the others (counterexample); an empty list raises"
  },
  {
   "property": "C46",
   "status": "partial",
   "theorems": [
    "OM.C46_accepts",
    "OM.C46_nest_iff_partial",
    "OM.C46_disjoint_partial",
    "OM.C46_union_partial",
    "OM.C46_sdf_covers",
    "OM.C46_inverted_overlap",
    "OM.C46_no_covering_raises",
    "OM.C46_fine_land_excluded",
    "OM.C46_nest_iff",
    "OM.C46_disjoint",
    "OM.C46_union",
    "OM.C46_nest_inside"
   ],
   "note": "membership, disjointness and the union of the nests proved for all domains that give numbers where asked; inverted domains overlap and domains without covering raise (counterexamples)"
  },
  {
   "property": "C47",
   "status": "partial",
   "theorems": [
    "OM.C47_finite_partial",
    "OM.C47_nonfinite_outside",
    "OM.C47_nonfinite_inside_inverted"
   ],
   "note": "inpoly2 and KD-tree are parameters here, they are put in in C102; with invert every non-finite point is inside (counterexample)"
  },
  {
   "property": "C48",
   "status": "proved",
   "theorems": [
    "OM.C48_sign"
   ],
   "note": ""
  },
  {
   "property": "C49",
   "status": "proved",
   "theorems": [
    "OM.C49_python",
    "OM.C49_compiled"
   ],
   "note": ""
  },
  {
   "property": "C50",
   "status": "partial",
   "theorems": [
    "OM.C50_agree_partial",
    "OM.C50_two_vertices"
   ],
   "note": "at least three vertices; with two vertices the kernels differ (counterexample)"
  },
  {
   "property": "C51",
   "status": "partial",
   "theorems": [
    "OM.C51_xor_compiled",
    "OM.C51_xor_python_partial",
    "OM.C51_outside_box",
    "OM.C51_boundary",
    "OM.C51_boundary_exact",
    "OM.C51_triangle",
    "OM.C51_flat_edge_skipped",
    "OM.C51_flat_edges"
   ],
   "note": "Python kernel: right exactly if the ray to the right meets an even number of edges that are flat up to the tolerance, which it skips (C51_flat_edges, counterexample C51_flat_edge_skipped); points outside the box by more than the tolerance"
  },
  {
   "property": "C52",
   "status": "partial",
   "theorems": [
    "OM.C52_independent_partial",
    "OM.C52_other_points",
    "OM.C52_not_finite",
    "OM.C52_invalid_edges_partial",
    "OM.C52_batch_size_matters",
    "OM.C52_no_nodes"
   ],
   "note": "where the choice of method does not depend on the number of points; counterexample: the automatic choice changes answers on the boundary at 1000 points; an empty node array accepts any edges"
  },
  {
   "property": "C53",
   "status": "proved",
   "theorems": [
    "OM.C53_rings",
    "OM.C53_fails",
    "OM.C53_terminates",
    "OM.C53_shoreline_edges",
    "OM.C53_engines",
    "OM.C53_shoreline_methods",
    "OM.C53_engine_rings",
    "OM.C53_no_edges"
   ],
   "note": "for features of at least two points; edges as index pairs"
  },
  {
   "property": "C54",
   "status": "partial",
   "theorems": [
    "OM.C54_join_split_partial",
    "OM.C54_split_join_partial",
    "OM.C54_unterminated",
    "OM.C54_double_nan",
    "OM.C54_only_nan",
    "OM.C54_empty_list",
    "OM.C54_empty_polygon"
   ],
   "note": "holds for non-empty polygons separated by single NaN rows; counterexamples for the other cases"
  },
  {
   "property": "C55",
   "status": "proved",
   "theorems": [
    "OM.C55_densify",
    "OM.C55_empty"
   ],
   "note": "the inside mask is a parameter"
  },
  {
   "property": "C56",
   "status": "partial",
   "theorems": [
    "OM.C56_corner_cutting_partial",
    "OM.C56_quarter_points",
    "OM.C56_smooth_shoreline",
    "OM.C56_empty_raises",
    "OM.C56_no_refinements"
   ],
   "note": "non-empty coordinate lists; an empty one raises (counterexample)"
  },
  {
   "property": "C57",
   "status": "partial",
   "theorems": [
    "OM.C57_simplify_partial",
    "OM.C57_rings_keep_points",
    "OM.C57_last_point_dropped"
   ],
   "note": "the last point of a feature is dropped (counterexample for open features); for rings every point inside is kept as a location"
  },
  {
   "property": "C58",
   "status": "partial",
   "theorems": [
    "OM.C58_classification_partial",
    "OM.C58_order_and_disjoint",
    "OM.C58_stereo_no_mainland",
    "OM.C58_equal_area_kept"
   ],
   "note": "the code keeps islands of exactly the minimum area (counterexample to 'larger'); 'intersects' is shapely's overlaps; in stereographic coordinates the mainland is always empty"
  },
  {
   "property": "C59",
   "status": "proved",
   "theorems": [
    "OM.C59_overlap_iff",
    "OM.C59_overlap_symm"
   ],
   "note": ""
  },
  {
   "property": "C60",
   "status": "partial",
   "theorems": [
    "OM.C60_largest_picked_partial",
    "OM.C60_region_irrelevant",
    "OM.C60_overlap_ignored"
   ],
   "note": "false: the region is ignored and the largest subdataset is always picked (counterexample)"
  },
  {
   "property": "C61",
   "status": "partial",
   "theorems": [
    "OM.C61_convex_partial",
    "OM.C61_answers",
    "OM.C61_reflex_start",
    "OM.C61_tiny_raises",
    "OM.C61_open_triangle_raises"
   ],
   "note": "right for convex rings whenever it answers; counterexamples: a simple ring starting next to a reflex corner is misjudged, a very small square raises"
  },
  {
   "property": "C62",
   "status": "partial",
   "theorems": [
    "OM.C62_vector_partial",
    "OM.C62_points_lost",
    "OM.C62_duplicates_kept",
    "OM.C62_ring_end_doubled"
   ],
   "note": "holds for vectors; for arrays of points, as used, it is false: points with equal coordinates are removed, duplicates kept, the last point added again"
  },
  {
   "property": "C63",
   "status": "proved",
   "theorems": [
    "OM.C63_area",
    "OM.C63_nonneg",
    "OM.C63_translation",
    "OM.C63_reversal",
    "OM.C63_cyclic_shift"
   ],
   "note": ""
  },
  {
   "property": "C64",
   "status": "partial",
   "theorems": [
    "OM.C64_round_trip_partial",
    "OM.C64_exact",
    "OM.C64_wrong_length",
    "OM.C64_rounding",
    "OM.C64_ties",
    "OM.C64_title_newline"
   ],
   "note": "titles without line break; numbers are rounded to six decimals, exact for numbers with at most six decimals (counterexamples otherwise)"
  },
  {
   "property": "C65",
   "status": "partial",
   "theorems": [
    "OM.C65_history",
    "OM.C65_rejected",
    "OM.C65_t3s_partial",
    "OM.C65_second_export"
   ],
   "note": "true for write_to_t3s; write_to_fort14 changes the arrays of the caller, the second export writes other indices (counterexample for every mesh with an element)"
  },
  {
   "property": "C66",
   "status": "partial",
   "theorems": [
    "OM.C66_accepted",
    "OM.C66_implicit_global",
    "OM.C66_consistent_accepted",
    "OM.C66_empty_validated",
    "OM.C66_regional_crs_differ",
    "OM.C66_corners_only"
   ],
   "note": "empty lists are accepted by the validation itself, regional domains may have different CRS, containment is checked for the corners only (counterexamples); pyproj and the stereographic projection are parameters"
  },
  {
   "property": "C67",
   "status": "partial",
   "theorems": [
    "OM.C67_mesh_options",
    "OM.C67_mesh_documented",
    "OM.C67_unknown_rejected",
    "OM.C67_multiscale_options",
    "OM.C67_multiscale_documented_partial",
    "OM.C67_multiscale_rejected",
    "OM.C67_max_iter"
   ],
   "note": "unknown options are rejected; the documented options of generate_mesh are accepted; generate_multiscale_mesh rejects stereo and min_edge_length (counterexample), a float max_iter raises"
  },
  {
   "property": "C68",
   "status": "proved",
   "theorems": [
    "OM.C68_kept",
    "OM.C68_result",
    "OM.C68_result_exact"
   ],
   "note": "for every triangulation engine, distance function that works point by point, sizing function and start points; fix_mesh at the end merges close points, C68_result bounds its effect by the Lipschitz constant and the tolerance, C68_result_exact is exact for separated points"
  },
  {
   "property": "C69",
   "status": "partial",
   "theorems": [
    "OM.C69_iteration",
    "OM.C69_all_iterations",
    "OM.C69_generated_start",
    "OM.C69_result",
    "OM.C69_fixed_point_lost",
    "OM.C69_outside_moved"
   ],
   "note": "proved for fixed points that are start points (always so for generated start points) and not outside, and if the vertices found one after the other in the first iteration are different; if only the nearest vertices before placing are different the statement is false (C69_fixed_point_lost)"
  },
  {
   "property": "C70",
   "status": "proved",
   "theorems": [
    "OM.C70_balanced",
    "OM.C70_repulsive",
    "OM.C70_forces",
    "OM.C70_forces_stereo",
    "OM.C70_scale_free",
    "OM.C70_no_valid_size"
   ],
   "note": "for every sizing function, every square root and every mesh on which compute_forces returns"
  },
  {
   "property": "C71",
   "status": "partial",
   "theorems": [
    "OM.C71_initial_points",
    "OM.C71_too_small",
    "OM.C71_initial_stereo",
    "OM.C71_outside_box",
    "OM.C71_raises_iff",
    "OM.C71_raises_iff"
   ],
   "note": "everything except 'inside the bounding box': C71_outside_box shows a start point behind the box (the lattice ends less than one step behind it)"
  },
  {
   "property": "C72",
   "status": "proved",
   "theorems": [
    "OM.C72_projection",
    "OM.C72_returns",
    "OM.C72_flat_gradient"
   ],
   "note": "under the hypothesis that the squared difference quotient is at least deps, which distance functions satisfy; C72_flat_gradient shows the limit of the claim. Every exception of the distance function is taken for a ValueError, and its NaN values are not modelled"
  },
  {
   "property": "C73",
   "status": "proved",
   "theorems": [
    "OM.C73_unpack",
    "OM.C73_minimum",
    "OM.C73_sanitize",
    "OM.C73_rejected"
   ],
   "note": "NaN and infinities are explicit values"
  },
  {
   "property": "C74",
   "status": "proved",
   "theorems": [
    "OM.C74_unique_edges",
    "OM.C74_independent",
    "OM.C74_even"
   ],
   "note": "the cast to 32-bit integers is not modelled"
  },
  {
   "property": "C75",
   "status": "proved",
   "theorems": [
    "OM.C75_connectivity",
    "OM.C75_topology",
    "OM.C75_neighbours",
    "OM.C75_insert_points",
    "OM.C75_remove_points",
    "OM.C75_move_points",
    "OM.C75_move_lengths",
    "OM.C75_stale_without_vertices"
   ],
   "note": "CGAL's operations are parameters with the contract CgalLaws; histories without undefined behaviour (indices out of range, a vertex removed twice)"
  },
  {
   "property": "C76",
   "status": "partial",
   "theorems": [
    "OM.C76_whole_raster",
    "OM.C76_half_cell",
    "OM.C76_global_columns",
    "OM.C76_stored",
    "OM.C76_window_keeps_nodata",
    "OM.C76_flip_twice",
    "OM.C76_flip",
    "OM.C76_accepts"
   ],
   "note": "proved for whole rasters whose box does not reach around the globe, with each node at the south-west corner of its cell (half a cell away from its middle); false for global boxes (columns exchanged) and for no-data cells of bands read through a window (counterexamples). What rasterio returns is a parameter"
  },
  {
   "property": "C77",
   "status": "partial",
   "theorems": [
    "OM.C77_decides_180",
    "OM.C77_valid_lonlat_partial",
    "OM.C77_latitude_not_checked"
   ],
   "note": "boxes with latitudes between 90 and 180 are also called geographic (counterexample); the exact set is proved"
  },
  {
   "property": "C78",
   "status": "partial",
   "theorems": [
    "OM.C78_on_circle",
    "OM.C78_first_partial",
    "OM.C78_closed",
    "OM.C78_zero_step_raises",
    "OM.C78_negative_step_empty"
   ],
   "note": "exact real arithmetic; the first-point claim for positive steps, counterexamples for zero and negative steps"
  },
  {
   "property": "C79",
   "status": "partial",
   "theorems": [
    "OM.C79_gaps_partial",
    "OM.C79_end_missing",
    "OM.C79_short_line_raises",
    "OM.C79_points"
   ],
   "note": "gaps proved; the end of the line is never included and lines of at most half the minimum edge length raise (counterexamples)"
  },
  {
   "property": "C80",
   "status": "partial",
   "theorems": [
    "OM.C80_limits_partial",
    "OM.C80_coarsen_rejected",
    "OM.C80_plane_partial",
    "OM.C80_coarse_no_extrapolation"
   ],
   "note": "limits at all nodes, formula for plane bottoms (1e-10 is added to the slope); the Rossby filters are in C91; a coarsened result is 999999 beyond its last node (counterexample)"
  },
  {
   "property": "C81",
   "status": "partial",
   "theorems": [
    "OM.C81_values_partial",
    "OM.C81_divisor_rejected",
    "OM.C81_zero_size"
   ],
   "note": "values for boxes that do not reach around the globe, distances are parameters; without a minimum sizes below the recorded minimum occur (counterexample); boxes around the globe and the exact values are treated in C111"
  },
  {
   "property": "C82",
   "status": "partial",
   "theorems": [
    "OM.C82_round_trip_partial",
    "OM.C82_exact"
   ],
   "note": "numbers are rounded to six decimals, exact for numbers with at most six decimals; dates without line break"
  },
  {
   "property": "C83",
   "status": "proved",
   "theorems": [
    "OM.C83_locked_boundary",
    "OM.C83_points",
    "OM.C83_free_vertices"
   ],
   "note": "for triangulations whose triangles have three different corners, under the contract CgalLaws"
  },
  {
   "property": "C84",
   "status": "partial",
   "theorems": [
    "OM.C84_bar_distortion",
    "OM.C84_initial_factor"
   ],
   "note": "proved for the factor of the bar sizes; false for the factor of the initial points (C84_initial_factor)"
  },
  {
   "property": "C85",
   "status": "partial",
   "theorems": [
    "OM.C85_range",
    "OM.C85_no_range",
    "OM.C85_monotone",
    "OM.C85_nodes_partial",
    "OM.C85_south_up_flipped",
    "OM.C85_first_raster",
    "OM.C85_reduce",
    "OM.C85_coord_name",
    "OM.C85_nodes_any"
   ],
   "note": "evenly spaced axes; proved with x going up and y going down; for the other directions the values are mirrored along that axis (C85_nodes_any; so the claim is false for latitudes from south to north, C85_south_up_flipped)"
  },
  {
   "property": "C86",
   "status": "partial",
   "theorems": [
    "OM.C86_window_box",
    "OM.C86_transformed_corners",
    "OM.C86_region_cut_off",
    "OM.C86_identity_stretched",
    "OM.C86_synthetic_corners",
    "OM.C86_crs"
   ],
   "note": "the covered part is proved relative to the transformed box; the transformed box need not hold the transformed region (C86_region_cut_off)"
  },
  {
   "property": "C87",
   "status": "partial",
   "theorems": [
    "OM.C87_triangles",
    "OM.C87_result",
    "OM.C87_nests",
    "OM.C87_minimum",
    "OM.C87_minimum_capped",
    "OM.C87_seam",
    "OM.C87_border_not_owned",
    "OM.C87_result_merged"
   ],
   "note": "proved with the smallest of the minimum sizes and 9999 in place of the smallest minimum size; false if all minimum sizes exceed 9999 (C87_minimum_capped). For the returned mesh exact if the points of the last iteration do not fall together in fix_mesh; otherwise centroids up to the merging tolerance (C87_result_merged)"
  },
  {
   "property": "C88",
   "status": "partial",
   "theorems": [
    "OM.C88_read",
    "OM.C88_unchanged_partial",
    "OM.C88_meets_iff",
    "OM.C88_crs",
    "OM.C88_region_box",
    "OM.C88_stereo_box",
    "OM.C88_boubox",
    "OM.C88_diagonal_point_lost",
    "OM.C88_straight_line"
   ],
   "note": "which features are read, their order, the errors and the coordinate system are proved; points are unchanged only if none has equal coordinates, and the last one is doubled (C88_diagonal_point_lost)"
  },
  {
   "property": "C89",
   "status": "partial",
   "theorems": [
    "OM.C89_clip_partial",
    "OM.C89_rings",
    "OM.C89_inside_partial",
    "OM.C89_repaired_repeated"
   ],
   "note": "proved for features with valid polygons (closed rings for all); a polygon repaired into several parts comes out once for each part"
  },
  {
   "property": "C90",
   "status": "partial",
   "theorems": [
    "OM.C90_rings_closed_partial",
    "OM.C90_edges_partial",
    "OM.C90_area",
    "OM.C90_small_island_kept",
    "OM.C90_diagonal_start_opened",
    "OM.C90_outline",
    "OM.C90_outline_spacing"
   ],
   "note": "closed rings are proved if no ring starts at a point with equal coordinates (false otherwise, C90_diagonal_start_opened); the area limit is a quarter of the stated one (C90_area, C90_small_island_kept)"
  },
  {
   "property": "C91",
   "status": "partial",
   "theorems": [
    "OM.C91_value",
    "OM.C91_filter_ignored",
    "OM.C91_inside_blocks",
    "OM.C91_runs",
    "OM.C91_single_column",
    "OM.C91_projected_rejected",
    "OM.C91_global_rejected",
    "OM.C91_one_block",
    "OM.C91_block_border",
    "OM.C91_radius",
    "OM.C91_level",
    "OM.C91_bandstop_off",
    "OM.C91_rossby_selected",
    "OM.C91_rossby_is_off",
    "OM.C91_limits_partial",
    "OM.C91_exact",
    "OM.C91_global_choice",
    "OM.C91_radius_formula",
    "OM.C91_block_length",
    "OM.C91_around"
   ],
   "note": "false: the filtered field is thrown away, the result is the slope of the depths as given, computed block by block (C91_value, C91_filter_ignored); global grids, projected grids and grids with a single column left over are rejected; band-stop is never applied. Levels and radius are as documented (C91_level, C91_radius)"
  },
  {
   "property": "C92",
   "status": "partial",
   "theorems": [
    "OM.C92_nearest",
    "OM.C92_half_cell",
    "OM.C92_indices",
    "OM.C92_lines_partial",
    "OM.C92_short_line",
    "OM.C92_points",
    "OM.C92_shore_points",
    "OM.C92_shore_points_error",
    "OM.C92_mask",
    "OM.C92_minimum_not_reached",
    "OM.C92_outside_point_marked",
    "OM.C92_shore_partial"
   ],
   "note": "nearest nodes, half a spacing and the mask are proved; false: the minimum is not reached at marked nodes (C92_minimum_not_reached), points outside the box mark border nodes (C92_outside_point_marked), one short line makes the function raise (C92_short_line)"
  },
  {
   "property": "C93",
   "status": "partial",
   "theorems": [
    "OM.C93_border",
    "OM.C93_single_row"
   ],
   "note": "proved for at least two rows and two columns; cells are repeated otherwise (C93_single_row)"
  },
  {
   "property": "C94",
   "status": "partial",
   "theorems": [
    "OM.C94_raises_iff",
    "OM.C94_one_iteration",
    "OM.C94_positive_sizes",
    "OM.C94_wellformed",
    "OM.C94_nothing_left"
   ],
   "note": "the result is well-formed whenever there is one; it raises exactly if in an iteration before the last no side of a kept triangle has a positive size, in particular if no triangle is kept (C94_nothing_left)"
  },
  {
   "property": "C95",
   "status": "partial",
   "theorems": [
    "OM.C95_path_compiled",
    "OM.C95_even_odd_compiled",
    "OM.C95_path_python_partial",
    "OM.C95_even_odd_python_partial"
   ],
   "note": "proved for the compiled kernel; for the Python kernel for points that are not level with a nearly horizontal edge, which it skips (C51_flat_edge_skipped); end points of the path must not be reported on the boundary"
  },
  {
   "property": "C96",
   "status": "proved",
   "theorems": [
    "OM.C96_traversable",
    "OM.C96_one_face",
    "OM.C96_boundary_faces"
   ],
   "note": "for make_mesh_boundaries_traversable: whenever it returns"
  },
  {
   "property": "C97",
   "status": "partial",
   "theorems": [
    "OM.C97_one_face_keeps",
    "OM.C97_two_steps",
    "OM.C97_smoothing_keeps",
    "OM.C97_boundary_faces_break"
   ],
   "note": "proved for the first, second and fourth step; the third step, delete_boundary_faces, destroys traversable boundaries (C97_boundary_faces_break)"
  },
  {
   "property": "C98",
   "status": "partial",
   "theorems": [
    "OM.C98_sizes_partial",
    "OM.C98_succeeds",
    "OM.C98_points_partial",
    "OM.C98_negative_in_box"
   ],
   "note": "not for base grids around the globe; sizes at points are proved within the lattice, beyond the last node the size can be negative inside the box (C98_negative_in_box); base grids around the globe are treated in C108"
  },
  {
   "property": "C99",
   "status": "proved",
   "theorems": [
    "OM.C99_generated",
    "OM.C99_workflow",
    "OM.C99_no_fixed"
   ],
   "note": "that the faces of CGAL form a complex is in the trusted base; without fixed points the points are always different (C99_no_fixed)"
  },
  {
   "property": "C100",
   "status": "partial",
   "theorems": [
    "OM.C100_defaults",
    "OM.C100_display",
    "OM.C100_objects_win",
    "OM.C100_order",
    "OM.C100_reproducible",
    "OM.C100_raises",
    "OM.C100_result",
    "OM.C100_box_of_two",
    "OM.C100_box_of_six",
    "OM.C100_seed_range",
    "OM.C100_seed_raises",
    "OM.C100_flags"
   ],
   "note": "boxes of two, six, ... numbers are accepted (counterexamples C100_box_of_two, C100_box_of_six); everything else is proved"
  },
  {
   "property": "C101",
   "status": "partial",
   "theorems": [
    "OM.C101_region_compiled",
    "OM.C101_region_python_partial",
    "OM.C101_convex",
    "OM.C101_mesh",
    "OM.C101_python_right_iff"
   ],
   "note": "proved for the compiled test; for the test in Python at points that are not level with an edge that is nearly but not exactly flat, and exactly when it is right (C101_python_right_iff)"
  },
  {
   "property": "C102",
   "status": "partial",
   "theorems": [
    "OM.C102_pointwise",
    "OM.C102_sign",
    "OM.C102_sign_python_partial",
    "OM.C102_covering",
    "OM.C102_on_shoreline",
    "OM.C102_files_partial",
    "OM.C102_nan_rows_unread",
    "OM.C102_degenerate_ignored",
    "OM.C102_leading_nan"
   ],
   "note": "signs are right off the edges; the size is the distance to the nearest vertex, not to the shoreline (C102_on_shoreline: points between two vertices of the shoreline get a value that is not zero); the Python test only for points that are not level with nearly flat edges; a row of NaN at the beginning of an array makes the test raise (C102_leading_nan)"
  },
  {
   "property": "C103",
   "status": "proved",
   "theorems": [
    "OM.C103_kept",
    "OM.C103_mesh",
    "OM.C103_call"
   ],
   "note": "with the compiled inside test, centroids within its tolerance of an edge excepted; that the regions can be cut into triangles is a hypothesis on the polygons"
  },
  {
   "property": "C104",
   "status": "partial",
   "theorems": [
    "OM.C104_sizes_partial",
    "OM.C104_succeeds",
    "OM.C104_graded",
    "OM.C104_pole_grows"
   ],
   "note": "without extrapolated values; on and south of the equator no size grows; north of it sizes can grow, the smallest size of the field is lost at the pole (counterexample C104_pole_grows, with the projection rounded to degrees); rows are exchanged for boxes around the globe as in C28"
  },
  {
   "property": "C105",
   "status": "proved",
   "theorems": [
    "OM.C105_systems",
    "OM.C105_global",
    "OM.C105_regions",
    "OM.C105_mixing",
    "OM.C105_raises"
   ],
   "note": "the CRS library and the projection are parameters; if there is no single stereographic domain no region is looked at (as in the code)"
  },
  {
   "property": "C106",
   "status": "proved",
   "theorems": [
    "OM.C106_rounds",
    "OM.C106_points",
    "OM.C106_radius",
    "OM.C106_convex",
    "OM.C106_spacing",
    "OM.C106_inside",
    "OM.C106_outside",
    "OM.C106_exact"
   ],
   "note": "exact arithmetic; points reported on the boundary excepted, with tolerance zero there are none (C106_exact)"
  },
  {
   "property": "C107",
   "status": "partial",
   "theorems": [
    "OM.C107_exact",
    "OM.C107_open",
    "OM.C107_closed",
    "OM.C107_bounds",
    "OM.C107_small",
    "OM.C107_returns_iff"
   ],
   "note": "exact if the ends are equal or not close; otherwise the closing edge is left out, at most about 0.0026 degrees (counterexample C107_small: three of the four sides of a square of 50 m)"
  },
  {
   "property": "C108",
   "status": "partial",
   "theorems": [
    "OM.C108_gradation",
    "OM.C108_gradation_lowered",
    "OM.C108_bounds",
    "OM.C108_distance",
    "OM.C108_feature",
    "OM.C108_minimum",
    "OM.C108_pipeline",
    "OM.C108_gradation_lost",
    "OM.rowAfter_twice",
    "OM.rowAfter_moves"
   ],
   "note": "The code falsifies the property: every build_interpolant exchanges the first and the last meridian of a box around the globe, and after compute_minimum and enforce_mesh_gradation neighbouring sizes differ by three times the allowed amount (C108_gradation_lost). Proved for every box without exception what each function returns, in terms of the exchange; the feature sizes and the documented pair compute_minimum, enforce_mesh_gradation exchange twice and so end at the right meridian, with no size above a given one."
  },
  {
   "property": "C109",
   "status": "partial",
   "theorems": [
    "OM.C109_bounds",
    "OM.C109_no_points",
    "OM.C109_transform_partial",
    "OM.C109_transform_polygon",
    "OM.C109_corners_only",
    "OM.C109_five_values"
   ],
   "note": "The code falsifies the last part: transform_to moves only two corners of a tuple (C109_corners_only: under a rotation the box of a square has no width), and tuples of five values are accepted and returned. Proved: total_bounds is the smallest box of the points and a valid extent for every polygon with points and every tuple of four; for transformers that treat the axes separately and increasingly the new box holds exactly the images; polygons are transformed vertex by vertex."
  },
  {
   "property": "C110",
   "status": "partial",
   "theorems": [
    "OM.C110_parse",
    "OM.C110_parse_bare",
    "OM.C110_only",
    "OM.C110_describe_long",
    "OM.C110_form",
    "OM.C110_injective",
    "OM.C110_unknown",
    "OM.C110_keywords",
    "OM.C110_unexpanded",
    "OM.C110_collision",
    "OM.C110_empty_tag",
    "OM.C110_older_tag",
    "OM.C110_branch_taken",
    "OM.C110_keywords_no_tags",
    "OM.C110_sources",
    "OM.C110_checkout",
    "OM.C110_directory_ignored"
   ],
   "note": "The code falsifies parts: of several tags the first in the order of characters is taken, not the newest (C110_older_tag), without tags the name of a branch (C110_branch_taken); tags with plus signs can give the version of another commit (C110_collision); the tag that is the prefix alone counts as no tag (C110_empty_tag). Proved: reading of git describe for all tags and back, the form of versions, different versions for different commits if tags have no plus sign, which tag of an exported commit is taken. The other styles, dates and branch names are not modelled (style pep440 is configured).; the order keywords, git, directory is proved, but the prefix written into the file is the word None, so that an unpacked release has no version (C110_directory_ignored)"
  },
  {
   "property": "C111",
   "status": "partial",
   "theorems": [
    "OM.C111_exact",
    "OM.C111_region",
    "OM.C111_medial",
    "OM.C111_marks",
    "OM.C111_width",
    "OM.C111_rate_partial",
    "OM.C111_no_shoreline"
   ],
   "note": "The code falsifies parts: without points of the shoreline the distance solver raises and nothing catches it (C111_no_shoreline), nodes whose distance is NaN count as inside (C111_region). Proved otherwise for all boxes, with the exact conditions for an exception; the rate for boxes that do not reach around the globe, a distance of the plane and a solver whose answers change at most by the spacing from node to node. Without medial nodes the model gives none where the code has infinite sizes."
  },
  {
   "property": "C112",
   "status": "partial",
   "theorems": [
    "OM.C112_values",
    "OM.C112_average_weights",
    "OM.C112_count",
    "OM.C112_other_number",
    "OM.C112_new"
   ],
   "note": "values proved for every history; the statistics for histories in which all calls use the same number of neighbours. With statistics a later call with another number of neighbours raises and the count is wrong afterwards (C112_other_number)"
  },
  {
   "property": "C113",
   "status": "partial",
   "theorems": [
    "OM.C113_exact",
    "OM.C113_total",
    "OM.C113_lowers",
    "OM.C113_converged_partial",
    "OM.C113_converged_error_partial",
    "OM.C113_unchanged",
    "OM.C113_converges",
    "OM.C113_roundDouble",
    "OM.C113_doubles_converge",
    "OM.C113_rounding_matters",
    "OM.C113_nearest"
   ],
   "note": "everything except the gradation along the second diagonal, which the code does not look at (C24_antidiagonal_violated); roundDouble has exponents of any size (no overflow or subnormal numbers)"
  },
  {
   "property": "C114",
   "status": "partial",
   "theorems": [
    "OM.C114_far",
    "OM.C114_region",
    "OM.C114_reported",
    "OM.C114_on_edge_partial",
    "OM.C114_vertex",
    "OM.C114_order",
    "OM.C114_doubles",
    "OM.C114_degrees",
    "OM.C114_wrong_side",
    "OM.C114_on_edge_missed"
   ],
   "note": "proved for points farther than ftol + 16 u M from all edges, reported points, first points of edges, and points on edges that are short compared with the tolerance (in degrees and for doubles: up to 2.5 degrees). The code falsifies the rest: the tolerance 5e-14 does not grow with the coordinates, points exactly on long edges are reported outside (C114_on_edge_missed), points farther than the tolerance from all edges can get the wrong side (C114_wrong_side)"
  },
  {
   "property": "C115",
   "status": "partial",
   "theorems": [
    "OM.C115_error",
    "OM.C115_sign",
    "OM.C115_equal_corners",
    "OM.C115_orientation_partial",
    "OM.C115_doubles",
    "OM.C115_sliver_flips",
    "OM.C115_made_clockwise"
   ],
   "note": "errors of areas proved for all triangles; the orientation is right for all triangles whose area is more than two rounding errors of the two products. The code falsifies the rest for slivers: repeating the step flips a row again (C115_sliver_flips), a counterclockwise row is made clockwise (C115_made_clockwise)"
  },
  {
   "property": "C116",
   "status": "partial",
   "theorems": [
    "OM.C116_exact",
    "OM.C116_points",
    "OM.C116_inside_box",
    "OM.C116_kept",
    "OM.C116_closed",
    "OM.C116_enclosing_lost",
    "OM.C116_side_lost"
   ],
   "note": "the function is described exactly; everything proved except that the common part is enclosed and that the function returns whenever a polygon meets the box. The code falsifies both: a polygon around the box is lost and the function raises (C116_enclosing_lost), points beyond a side are left out without replacement (C116_side_lost). Polygons wholly inside are returned as they are, closed or not"
  },
  {
   "property": "C117",
   "status": "partial",
   "theorems": [
    "OM.C117_floorDiv",
    "OM.C117_count",
    "OM.C117_first",
    "OM.C117_ascending",
    "OM.C117_node_error",
    "OM.C117_strict_partial",
    "OM.C117_last_partial",
    "OM.C117_doubles_partial",
    "OM.C117_overshoot",
    "OM.C117_short",
    "OM.C117_stalls"
   ],
   "note": "number of nodes, first node and weak order proved; strict order for spacings of more than eight rounding errors of the coordinates, position of the last node up to six rounding errors of the coordinates. The code falsifies the rest: the last node can lie beyond the box (C117_overshoot) or a whole spacing before its end (C117_short), nodes coincide for tiny spacings (C117_stalls)"
  },
  {
   "property": "C118",
   "status": "partial",
   "theorems": [
    "OM.C118_returns_iff",
    "OM.C118_map",
    "OM.C118_distinct",
    "OM.C118_merged_partial",
    "OM.C118_same_place_partial",
    "OM.C118_doubles_partial",
    "OM.C118_merged_beyond_tolerance"
   ],
   "note": "proved except that the distance of merged vertices is bounded by the tolerance times the extent only up to five rounding errors of the coordinates; the code falsifies the bound without them (C118_merged_beyond_tolerance)"
  },
  {
   "property": "C119",
   "status": "partial",
   "theorems": [
    "OM.C119_steps",
    "OM.C119_fixed",
    "OM.C119_box",
    "OM.C119_box_linear",
    "OM.C119_returns",
    "OM.C119_exact",
    "OM.C119_leaves_box"
   ],
   "note": "everything proved except that the box is kept exactly, which the code falsifies (C119_leaves_box: an inner vertex moves beyond all others by one unit in the last place); the box grows by at most 2 (N + 1) max_iter u M, N neighbours, coordinates up to M. The lengths in the stop test are a parameter; overflow is not modelled"
  },
  {
   "property": "C120",
   "status": "partial",
   "theorems": [
    "OM.C120_returns",
    "OM.C120_wellformed",
    "OM.C120_geometry_partial",
    "OM.C120_orientation_partial",
    "OM.C120_vertex_map_partial",
    "OM.C120_exact",
    "OM.C120_doubles_partial",
    "OM.C120_clockwise_result"
   ],
   "note": "everything about indices, vertices and rows proved for every rounding rule; corners match up to the tolerance plus five rounding errors of the coordinates (without them false, C118_merged_beyond_tolerance); orientation proved for all triangles whose area is more than two rounding errors of the two products, false for slivers (C120_clockwise_result)"
  },
  {
   "property": "C121",
   "status": "partial",
   "theorems": [
    "OM.C121_repeat_partial",
    "OM.C121_repeat_delete_unused_partial",
    "OM.C121_repeat_exact_partial",
    "OM.C121_not_idempotent",
    "OM.C121_rows_reordered"
   ],
   "note": "proved if the extent of the vertices is unchanged: the same mesh, with delete_unused=True up to the order of the rows, and from the second call on exactly the same. The code falsifies the rest: the second call can merge more vertices when the extent shrinks (C121_not_idempotent) and can exchange rows (C121_rows_reordered)"
  },
  {
   "property": "C122",
   "status": "partial",
   "theorems": [
    "OM.C122_exact",
    "OM.C122_far",
    "OM.C122_kernels_agree",
    "OM.C122_region",
    "OM.C122_reported",
    "OM.C122_on_edge_partial",
    "OM.C122_vertices",
    "OM.C122_doubles",
    "OM.C122_overshoot",
    "OM.C122_short_edge",
    "OM.C122_on_edge_differ"
   ],
   "note": "proved for closed polygons and points that are not level with a nearly horizontal edge and farther from every edge than 3/2 tolerances plus 9/4 tolerances divided by the length of the edge plus 64 u M; points of edges up to length 90 are reported for doubles and the default tolerance. The code falsifies the rest: along an edge the Python kernel compares the tolerance with a product of two lengths, so that points in line with a short edge are reported although they are 10^8 tolerances away (C122_short_edge); nearly horizontal edges are skipped (C51_flat_edge_skipped); the kernels disagree on long edges (C122_on_edge_differ)"
  },
  {
   "property": "C123",
   "status": "partial",
   "theorems": [
    "OM.C123_raises_iff",
    "OM.C123_same_system",
    "OM.C123_lattice",
    "OM.C123_values_partial",
    "OM.C123_globe_rows",
    "OM.C123_bounds_partial",
    "OM.C123_plane_partial",
    "OM.C123_outside_poisoned",
    "OM.C123_attributes",
    "OM.C123_blend_with_fill",
    "OM.C123_method_differs"
   ],
   "note": "proved for targets that do not reach around the globe and, for the bounds, nodes whose place is in the lattice of the source. The code falsifies the rest: nodes outside get 999999, which is blended into the cells next to them (C123_outside_poisoned, C123_blend_with_fill), global targets get their first and last row exchanged (C123_globe_rows); interpolation method, hmin and the interpolant depend on whether the systems are equal (C123_method_differs, C123_attributes)"
  },
  {
   "property": "C124",
   "status": "partial",
   "theorems": [
    "OM.C124_exact",
    "OM.C124_node_error",
    "OM.C124_ascending",
    "OM.C124_strict_partial",
    "OM.C124_last_partial",
    "OM.C124_cover_partial",
    "OM.C124_selection",
    "OM.C124_initial_points",
    "OM.C124_doubles_partial",
    "OM.C124_extra_row",
    "OM.C124_end_missed"
   ],
   "note": "proved for every relative error up to 1/8 with the positions up to 15 rounding errors of the largest coordinate and steps larger than 16 of them; without stereographic coordinates. The statement is false without this margin: the code adds a row a whole step behind the box (C124_extra_row) or does not reach the end of the box (C124_end_missed)."
  },
  {
   "property": "C125",
   "status": "partial",
   "theorems": [
    "OM.C125_exact",
    "OM.C125_square_sums",
    "OM.C125_fixed_points",
    "OM.C125_given_points",
    "OM.C125_locked_boundary",
    "OM.C125_forces",
    "OM.C125_force_formula",
    "OM.C125_kept",
    "OM.C125_centroid_error",
    "OM.C125_result_partial",
    "OM.C125_wellformed",
    "OM.C125_orientation_partial",
    "OM.C125_projection",
    "OM.C125_raises_iff",
    "OM.C125_one_iteration",
    "OM.C125_doubles",
    "OM.C125_unbalanced"
   ],
   "note": "fixed points, locked boundary, kept triangles, direction of forces and projection, well-formedness and the cases of failure are proved without a tolerance; the sum of the forces, the centroids and the orientation up to rounding errors (the forces do not add up to zero exactly: C125_unbalanced). Overflow and underflow are not modelled."
  },
  {
   "property": "C126",
   "status": "proved",
   "theorems": [
    "OM.C126_exact",
    "OM.C126_pointwise",
    "OM.C126_tests",
    "OM.C126_sign",
    "OM.C126_kept",
    "OM.C126_mesh",
    "OM.C126_run",
    "OM.C126_degrees",
    "OM.C126_degrees_python"
   ],
   "note": "for closed polygons made of stored numbers of magnitude at most M, with the region of the sea given as triangles (as in C102 and C103); the margin is tolerance + 16 u M (compiled test) or the reach of the Python test, plus the errors of centroid and fix_mesh. Distances of the KD-tree are a parameter with a relative error. With the Python test points level with nearly but not exactly flat edges are excepted, which it skips (C101_python_right_iff)."
  },
  {
   "property": "C127",
   "status": "partial",
   "theorems": [
    "OM.C127_versions",
    "OM.C127_status",
    "OM.C127_other",
    "OM.C127_other_library",
    "OM.C127_third_number",
    "OM.C127_other_processor"
   ],
   "note": "proved as an equivalence for all inputs with 'some shared library with libgmp (libmpfr) in its path' in place of the library itself; the code falsifies the rest: libgmpxx alone counts as libgmp (C127_other_library), a third number of a version is ignored (C127_third_number), other processors are not checked (C127_other_processor). --max-glibc is taken as two numbers, auditwheel and zipfile are parameters"
  },
  {
   "property": "C128",
   "status": "partial",
   "theorems": [
    "OM.C128_range",
    "OM.C128_nodes",
    "OM.C128_interp_error",
    "OM.C128_distance",
    "OM.C128_distance_error",
    "OM.C128_wave",
    "OM.C128_wave_error",
    "OM.C128_slope",
    "OM.C128_slope_error",
    "OM.C128_feature",
    "OM.C128_limits",
    "OM.C128_doubles",
    "OM.C128_below"
   ],
   "note": "all parts proved except that sizes between nodes stay within the sizes at the nodes, which the code falsifies by rounding (C128_below); proved up to seven roundings (C128_range) and in doubles up to the factor 1 - 2^-50 (C128_doubles). scipy's formula is in the trusted base"
  },
  {
   "property": "C129",
   "status": "partial",
   "theorems": [
    "OM.C129_sign",
    "OM.C129_mesh",
    "OM.C129_projection",
    "OM.C129_corner_outside",
    "OM.C129_angles",
    "OM.C129_circle"
   ],
   "note": "proved except that vertices beyond two sides are moved back: the code moves them to one of the two lines only and they stay outside (C129_corner_outside); proved for points beyond one side that are at least 2 deps from the lines through the neighbouring sides, with the error 23 u M / deps times the distance (C129_projection). cos and sin of the platform are parameters with a bound on their error"
  },
  {
   "property": "C130",
   "status": "partial",
   "theorems": [
    "OM.C130_terminates",
    "OM.C130_traversable",
    "OM.C130_only_removes_partial",
    "OM.C130_only_removes_exact",
    "OM.C130_unchanged",
    "OM.C130_exterior_partial",
    "OM.C130_exterior_clear",
    "OM.C130_boundary_faces",
    "OM.C130_no_single_neighbour_partial",
    "OM.C130_valid_mesh",
    "OM.C130_orientation_partial",
    "OM.C130_box_partial",
    "OM.C130_exact",
    "OM.C130_threshold_rounds"
   ],
   "note": "termination, traversability, form of the result and removal of bad triangles proved (corners up to the merging distance of fix_mesh); components are kept or deleted as a whole and correctly if their area is away from the threshold by more than the rounding errors, at the threshold the code decides otherwise (C130_threshold_rounds); orientation except for slivers, which the code falsifies (C120_clockwise_result), and the box up to the rounding errors of the smoothing, without which the code falsifies it (C119_leaves_box)"
  },
  {
   "property": "C131",
   "status": "partial",
   "theorems": [
    "OM.C131_accuracy_partial",
    "OM.C131_nan",
    "OM.C131_nonneg",
    "OM.C131_equal_corners",
    "OM.C131_exact",
    "OM.C131_boundary_partial",
    "OM.C131_order",
    "OM.C131_doubled",
    "OM.C131_sliver_kept"
   ],
   "note": "proved with the factor 1 +- 60 kappa u for triangles whose perimeter is at most kappa times each difference of sides, 500 kappa u <= 1; for thinner ones the code falsifies it: a sliver of different corners and positive area gets NaN, is not below the limit and stays (C131_sliver_kept)"
  },
  {
   "property": "C132",
   "status": "partial",
   "theorems": [
    "OM.C132_error",
    "OM.C132_between",
    "OM.C132_coincident",
    "OM.C132_fill",
    "OM.C132_fill_positive",
    "OM.C132_hmin",
    "OM.C132_constant_partial",
    "OM.C132_double",
    "OM.C132_hmin_below_data",
    "OM.C132_value",
    "OM.C132_no_weight",
    "OM.C132_fill_value"
   ],
   "note": "error bound, exactness at data points and the blended grid proved; between the smallest and largest value holds up to that error only, the code falsifies it and the reproduction of constants (C132_constant_partial, for every library; C132_hmin_below_data). The power has relative error u, distances come from the tree"
  },
  {
   "property": "C133",
   "status": "partial",
   "theorems": [
    "OM.C133_quarters",
    "OM.C133_corner_cutting",
    "OM.C133_corner_cutting_empty",
    "OM.C133_smooth_shoreline",
    "OM.C133_densify_partial",
    "OM.C133_area_error",
    "OM.C133_area_nonneg",
    "OM.C133_gap_exceeded",
    "OM.C133_area_cancels"
   ],
   "note": "corner cutting and smoothing proved; the gaps after densifying are at most the spacing times 1 + 3u plus 22 u M and the inserted points within 11 u M of the segments (C133_densify_partial), without these the code falsifies it (C133_gap_exceeded); the error of the area is proved, the independence of the place is falsified (C133_area_cancels)"
  },
  {
   "property": "C134",
   "status": "partial",
   "theorems": [
    "OM.C134_new",
    "OM.C134_sound",
    "OM.C134_corner",
    "OM.C134_raise",
    "OM.C134_independent",
    "OM.C134_new_separate",
    "OM.C134_built",
    "OM.C134_eval_current",
    "OM.C134_eval_node",
    "OM.C134_eval_frozen",
    "OM.C134_build_values",
    "OM.C134_stale",
    "OM.C134_transform_leaves_nodes",
    "OM.C134_none_lost",
    "OM.C134_built_twice",
    "OM.C134_shared",
    "OM.C134_write",
    "OM.C134_scalar",
    "OM.C134_flip",
    "OM.C134_spacing",
    "OM.C134_plain",
    "OM.C134_transform",
    "OM.C134_alias"
   ],
   "note": "the invariants, independence of grids with arrays of their own and the interpolator after building are proved; the last clause and the clause on exceptions are falsified by the code: assigned values are not seen by the interpolator (C134_stale), transform_to leaves the nodes (C134_transform_leaves_nodes), assigning None raises and loses the values (C134_none_lost), building again around the globe changes the result (C134_built_twice), also through a shared array (C134_shared)"
  },
  {
   "property": "C135",
   "status": "partial",
   "theorems": [
    "OM.C135_limiter",
    "OM.C135_limiter_overflow",
    "OM.C135_limiter_line",
    "OM.C135_limiter_iff",
    "OM.C135_unique_edges",
    "OM.C135_many_edges",
    "OM.C135_edges_wrap",
    "OM.C135_numbers",
    "OM.C135_vertices",
    "OM.C135_faces",
    "OM.C135_face_neighbours",
    "OM.C135_bars"
   ],
   "note": "proved with the exact limits: less than 2^31 nodes and less than 2^31 - 1 rows and columns (C135_limiter_iff), less than 2^30 edges with numbers below 2^31, 2^31 - 1 points, 2^30 rows of vertices, 715827882 faces, 715827883 rows of neighbours; beyond them the code overflows (C135_limiter_overflow, C135_limiter_line, C135_many_edges, C135_edges_wrap and the second halves of C135_numbers, C135_vertices, C135_faces, C135_face_neighbours)"
  },
  {
   "property": "C136",
   "status": "partial",
   "theorems": [
    "OM.C136_text_unique",
    "OM.C136_irreflexive",
    "OM.C136_transitive",
    "OM.C136_pep440",
    "OM.C136_pep440_order",
    "OM.C136_pep440_dirty",
    "OM.C136_untagged",
    "OM.C136_master",
    "OM.C136_branch_older",
    "OM.C136_branch",
    "OM.C136_post",
    "OM.C136_post_invalid",
    "OM.C136_post_branch",
    "OM.C136_old",
    "OM.C136_pre",
    "OM.C136_pre_faults",
    "OM.C136_styles"
   ],
   "note": "proved for the style of the package (pep440) and the master branch; in the other styles the code falsifies the claim: off the master branch pep440-branch gives versions older than the tag (C136_branch_older), after a tag that is a post-release the styles pep440-post, pep440-post-branch and pep440-old give texts that are no versions (C136_post_invalid), pep440-pre does not tell a changed copy of the tag from the tag and raises for some tags (C136_pre_faults). For the remaining tags without development release and local part these styles are proved too"
  },
  {
   "property": "C137",
   "status": "partial",
   "theorems": [
    "OM.C137_step",
    "OM.C137_new",
    "OM.C137_history_partial",
    "OM.C137_numbers",
    "OM.C137_last",
    "OM.C137_nan_accepted",
    "OM.C137_transform"
   ],
   "note": "proved for the ranges that the setters test (C137_history_partial), for all histories; the ranges of the messages do not hold: NaN passes all three tests and refinements = 0 is accepted although the message asks for > 0 (C137_nan_accepted)"
  },
  {
   "property": "C138",
   "status": "partial",
   "theorems": [
    "OM.C138_vector",
    "OM.C138_text",
    "OM.C138_holes_lost",
    "OM.C138_warp",
    "OM.C138_crs_string",
    "OM.C138_samples",
    "OM.C138_samples_all",
    "OM.C138_samples_other",
    "OM.C138_sparse",
    "OM.C138_degree"
   ],
   "note": "all proved except that the outline is that of the whole area: holes and all features but the first are lost, and endings in capitals are rejected (C138_holes_lost); C138_vector and C138_text say what is read"
  },
  {
   "property": "C139",
   "status": "partial",
   "theorems": [
    "OM.C139_names",
    "OM.C139_sources",
    "OM.C139_inpoly",
    "OM.C139_prefix",
    "OM.C139_paths",
    "OM.C139_windows",
    "OM.C139_requirements",
    "OM.C139_torn"
   ],
   "note": "proved for requirements written without blanks (the file as it is); a requirement with blanks is torn into pieces and a pinned fiona makes the branch for old Python versions raise (C139_torn)"
  },
  {
   "property": "C140",
   "status": "partial",
   "theorems": [
    "OM.C140_fort14_partial",
    "OM.C140_t3s_partial",
    "OM.C140_size",
    "OM.C140_turned"
   ],
   "note": "proved for triangles whose double area exceeds a millionth of the extents of two sides (C140_size: it suffices that the triangle is a little larger than the last decimal) and vertices more than a millionth apart; a tiny counter-clockwise triangle is clockwise in both files (C140_turned)"
  },
  {
   "property": "C141",
   "status": "partial",
   "theorems": [
    "OM.C141_rounded_partial",
    "OM.C141_doubles_partial",
    "OM.C141_exact_partial",
    "OM.C141_order_matters",
    "OM.C141_boundary",
    "OM.C141_boundary_degree",
    "OM.C141_delete_boundary_faces",
    "OM.C141_exterior",
    "OM.C141_delete_one_face",
    "OM.C141_quality",
    "OM.C141_traversable",
    "OM.C141_mesh_clean_partial",
    "OM.C141_interior_depends"
   ],
   "note": "proved for points further apart than the merging distance and, in the cleaning passes, tables without repeated or unused entries and with counter-clockwise triangles; for closer points the kept vertex depends on the order (C141_order_matters); delete_interior_faces on its own depends on the order of the rows (C141_interior_depends), but make_mesh_boundaries_traversable calls it on a canonical table"
  },
  {
   "property": "C142",
   "status": "partial",
   "theorems": [
    "OM.C142_fix_mesh",
    "OM.C142_boundary_faces",
    "OM.C142_one_face",
    "OM.C142_exterior",
    "OM.C142_area",
    "OM.C142_scaling",
    "OM.C142_quality",
    "OM.C142_small_triangles_deleted",
    "OM.C142_laplacian",
    "OM.C142_traversable_depends"
   ],
   "note": "proved for points further apart than the merging distance and, in the cleaning passes, good meshes (as in C97); two parts fail: simp_qual is multiplied by the factor of the lengths, so delete_boundary_faces commutes with a change of unit only if the limit is changed too (C142_boundary_faces, C142_quality), and in small units it deletes every triangle at the boundary (C142_small_triangles_deleted); make_mesh_boundaries_traversable chooses one of two equal triangles by its coordinates (C142_traversable_depends)"
  },
  {
   "property": "C143",
   "status": "partial",
   "theorems": [
    "OM.C143_largest",
    "OM.C143_paths",
    "OM.C143_comparison",
    "OM.C143_symmetries",
    "OM.C143_unit",
    "OM.C143_mirror_matters"
   ],
   "note": "lower bound, upper bound along horizontal, vertical and (1,1)-diagonal steps and change of unit proved; the comparison with a larger, mirrored or transposed field is proved only with a gradation larger by the factor 2 / sqrt 2 and the tolerance, because the limiter leaves out the (1,-1) diagonals: exact symmetry fails (C143_mirror_matters)"
  },
  {
   "property": "C144",
   "status": "partial",
   "theorems": [
    "OM.C144_read_back",
    "OM.C144_import_partial",
    "OM.C144_installed_partial",
    "OM.C144_import_differs",
    "OM.C144_keywords"
   ],
   "note": "keywords and versions_from_file proved for all texts; the installed module sees the same text if it has no backslash and no three apostrophes in a row; with a quotation mark in a tag it reads a text that is not JSON, three apostrophes end the literal (C144_import_differs). json.loads is not modelled, of json.dumps only printable ASCII and the named control characters"
  },
  {
   "property": "C145",
   "status": "partial",
   "theorems": [
    "OM.C145_compiled",
    "OM.C145_python_partial",
    "OM.C145_box",
    "OM.C145_distance",
    "OM.C145_sizes",
    "OM.C145_python_unit",
    "OM.C145_globe_place"
   ],
   "note": "proved for the compiled test, distances and sizes; the test in Python only for shifts, it depends on the unit (C145_python_unit); build_interpolant depends on the place (C145_globe_place). The tolerance of the code is a constant without a unit, here it is scaled; the signed distance with the contract that the tree measures in the new unit; points that are not finite get 1e12 in every unit and are left out"
  },
  {
   "property": "C146",
   "status": "partial",
   "theorems": [
    "OM.C146_iterations",
    "OM.C146_mesh",
    "OM.C146_start",
    "OM.C146_first",
    "OM.C146_second",
    "OM.C146_forces",
    "OM.C146_projection",
    "OM.C146_projection_unit"
   ],
   "note": "without stereographic coordinates; proved for shifts and, if the signed distance is steep outside (difference quotients above their lower limit), for changes of unit; the code falsifies the rest: the lower limit of the squared gradient is a constant (C146_projection_unit). The step of the difference quotients and the length put in place of zero are constants in the code and are scaled here; CGAL is taken to commute with shifts and units; the returned mesh for points further apart than the merging distance, as a drawing"
  },
  {
   "property": "C147",
   "status": "partial",
   "theorems": [
    "OM.C147_marked_partial",
    "OM.C147_kept",
    "OM.C147_once",
    "OM.C147_twice_partial",
    "OM.C147_manifest_partial",
    "OM.C147_init",
    "OM.C147_init_again",
    "OM.C147_init_replaced",
    "OM.C147_run",
    "OM.C147_run_code",
    "OM.C147_root",
    "OM.C147_config",
    "OM.C147_scan",
    "OM.C147_glued",
    "OM.C147_longer_name",
    "OM.C147_manifest_glued",
    "OM.C147_init_unsettled",
    "OM.C147_root_without_setup",
    "OM.C147_scan_comment"
   ],
   "note": "marks and includes are proved for files that end with a newline (false otherwise, C147_glued, C147_manifest_glued) and if no name continues that of the version file (C147_longer_name); the lines in __init__.py are written again after a formatter changed their quotation marks (C147_init_again) and may need two runs (C147_init_unsettled)"
  },
  {
   "property": "C148",
   "status": "partial",
   "theorems": [
    "OM.C148_values",
    "OM.C148_distance_partial",
    "OM.C148_feature",
    "OM.C148_bounds",
    "OM.C148_gradation",
    "OM.C148_wave_partial",
    "OM.C148_fill",
    "OM.C148_no_distance",
    "OM.C148_shallow",
    "OM.C148_wavelength_partial",
    "OM.C148_distance_shift"
   ],
   "note": "for boxes that are not taken for the globe, without the stereographic correction; the code falsifies the rest: the size beyond the nodes (C148_fill), the distance when the solver fails (C148_no_distance) and the least depth (C148_shallow) are constants with a unit; wave lengths in projected coordinates for depths of at least one"
  },
  {
   "property": "C149",
   "status": "partial",
   "theorems": [
    "OM.C149_shift",
    "OM.C149_setup",
    "OM.C149_sizes_partial",
    "OM.C149_unit_partial",
    "OM.C149_eval",
    "OM.C149_script"
   ],
   "note": "plane coordinates, boxes not taken for the globe, grids that extrapolate, the compiled inside test; the distance solver is assumed not to fail (C149_sizes_partial); in another unit the start points and the first triangulation (C149_unit_partial), the projection depends on the unit (C146_projection_unit); C149_script needs no such assumption"
  },
  {
   "property": "C150",
   "status": "partial",
   "theorems": [
    "OM.C150_order",
    "OM.C150_checkout_partial",
    "OM.C150_sdist",
    "OM.C150_raises_iff",
    "OM.C150_none_prefix",
    "OM.C150_empty_date"
   ],
   "note": "only the version, not revision and date; in a tree without keywords and git the two versions agree if both look for the same name of a directory, which is not so in this package (C150_none_prefix); json.loads is a parameter"
  },
  {
   "property": "C151",
   "status": "partial",
   "theorems": [
    "OM.C151_smooth",
    "OM.C151_densify",
    "OM.C151_clip",
    "OM.C151_read_partial",
    "OM.C151_classify_partial",
    "OM.C151_shoreline_partial",
    "OM.C151_file_partial",
    "OM.C151_read_place",
    "OM.C151_orientation_unit",
    "OM.C151_close_place",
    "OM.C151_length_place",
    "OM.C151_margin_unit"
   ],
   "note": "without the stereographic option; if no point has equal coordinates in one place and not in the other (the code falsifies the rest, C151_read_place); in another unit the steps, not the whole, because the margin of the clipping (C151_margin_unit) and the tolerance of the orientation test (C151_orientation_unit) have a unit"
  },
  {
   "property": "C152",
   "status": "partial",
   "theorems": [
    "OM.C152_blend",
    "OM.C152_grids_partial",
    "OM.C152_sizes_partial",
    "OM.C152_multiscale_partial",
    "OM.C152_minimum_partial",
    "OM.C152_globe_place",
    "OM.C152_sizes_unit"
   ],
   "note": "for grids not taken for the globe in either place (the code falsifies the rest, C152_globe_place) and the minimum of grids in one coordinate system; the tree query is a parameter that does not depend on the place"
  },
  {
   "property": "C153",
   "status": "partial",
   "theorems": [
    "OM.C153_operations",
    "OM.C153_domains",
    "OM.C153_nest",
    "OM.C153_nests_raise",
    "OM.C153_nest_mesh_partial",
    "OM.C153_final_partial"
   ],
   "note": "plane coordinates; the mesh of a nest is the moved mesh up to numbering if its points are further apart than the merging distance; the final run only for the same order of its start points, because fix_mesh orders points by the bytes of their coordinates"
  },
  {
   "property": "C154",
   "status": "proved",
   "theorems": [
    "OM.C154_write",
    "OM.C154_sdist",
    "OM.C154_sdist_version",
    "OM.C154_sources_kept",
    "OM.C154_build_py",
    "OM.C154_build_ext",
    "OM.C154_build_exe",
    "OM.C154_exe_raises",
    "OM.C154_ext_alone",
    "OM.C154_exe_not_restored"
   ],
   "note": "names and files as a disk with hard links; the commands of setuptools are parameters; findings: freezing does not restore the version file, and leaves the fixed version if the command raises; building extensions alone raises (this package replaces that command, setup.py:178-193)"
  },
  {
   "property": "C155",
   "status": "proved",
   "theorems": [
    "OM.C155_returns",
    "OM.C155_wellformed",
    "OM.C155_oriented",
    "OM.C155_geometry",
    "OM.C155_exact"
   ],
   "note": "exact arithmetic; as in two dimensions, two points of the result can have the same snapped position on different sides of a coordinate plane (-0.0 and 0.0, C05_signed_zero_duplicates)"
  },
  {
   "property": "C156",
   "status": "partial",
   "theorems": [
    "OM.C156_slope",
    "OM.C156_filtered",
    "OM.C156_sizing_partial",
    "OM.C156_moved",
    "OM.C156_shallow",
    "OM.C156_shallow_sizing"
   ],
   "note": "another place: proved for all elevations (C156_moved; the metres per degree are a parameter and kept, so for geographic grids this is a shift along the parallel). Another unit: proved if the cut elevations are at most minus one in both units; the rest is false because depths below one count as one in every unit (C156_shallow, C156_shallow_sizing). The filter is a parameter that respects units"
  },
  {
   "property": "C157",
   "status": "partial",
   "theorems": [
    "OM.C157_first_face_partial",
    "OM.C157_invariance_partial",
    "OM.C157_scales",
    "OM.C157_flat",
    "OM.C157_order",
    "OM.C157_defined",
    "OM.C157_value"
   ],
   "note": "proved: a number exactly if the first three corners are different (C157_defined), never negative and zero exactly if they lie on a line (C157_value), same after shifts, permutations of the axes, mirror images and permutations of the first three corners. The rest is false: only the first face is looked at (C157_first_face_partial), tetrahedra without volume are as good as others (C157_flat), the order of the corners matters (C157_order) and the value grows with the size (C157_scales)"
  },
  {
   "property": "C158",
   "status": "partial",
   "theorems": [
    "OM.C158_repeat_partial",
    "OM.C158_repeat_delete_unused_partial",
    "OM.C158_not_idempotent"
   ],
   "note": "exact arithmetic; proved if the extent of the points is unchanged: without delete_unused the same result, with it the same points and rows, maybe in another order, and the same result from the third call on. False without that hypothesis (C158_not_idempotent)"
  },
  {
   "property": "C159",
   "status": "partial",
   "theorems": [
    "OM.C159_shoreline_lines",
    "OM.C159_shoreline_legend",
    "OM.C159_shoreline_output",
    "OM.C159_shoreline_box",
    "OM.C159_grid",
    "OM.C159_grid_output",
    "OM.C159_edges",
    "OM.C159_level",
    "OM.C159_grid_bar",
    "OM.C159_level_output",
    "OM.C159_limits_ignored",
    "OM.C159_shown_before_saved",
    "OM.C159_dem_cmap",
    "OM.C159_dem_saved_early"
   ],
   "note": "the calls into matplotlib, not what it draws. Proved except for the limits of the axes of a shoreline, which are ignored (C159_limits_ignored). Further findings: the file of a shoreline is written after the window was shown (C159_shown_before_saved), the one of a DEM before labels and colour bar (C159_dem_saved_early), and a colour map for a DEM raises (C159_dem_cmap)"
  },
  {
   "property": "C160",
   "status": "partial",
   "theorems": [
    "OM.C160_success",
    "OM.C160_installed_partial",
    "OM.C160_again_partial",
    "OM.C160_refused",
    "OM.C160_sample_once",
    "OM.C160_other_vcs",
    "OM.C160_command",
    "OM.C160_second_run",
    "OM.C160_kept",
    "OM.C160_raises"
   ],
   "note": "configparser, the filled template and the module name are parameters. Completeness and repeatability are proved if MANIFEST.in and .gitattributes end with a newline, no name in .gitattributes continues that of the version file and __init__.py never has the old form of the lines; without the newline a second run changes MANIFEST.in again (C160_second_run). A setup that returns an error is harmless (C160_refused), but for another system than git the version file is emptied before the exception (C160_other_vcs)"
  }
 ]
}
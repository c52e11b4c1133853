{
 "claims": [
  {
   "property": "C01",
   "status": "proved",
   "theorems": [
    "Mmg.Hash.C01_edge_table_is_map",
    "Mmg.Hash.C01_edge_table_total"
   ],
   "note": "Refinement to a map on unordered pairs over all operation histories."
  },
  {
   "property": "C02",
   "status": "proved",
   "theorems": [
    "Mmg.Hash.C02_edge_table_memory_safe",
    "Mmg.Hash.C02_hypothesis_needed"
   ],
   "note": "Safety for hmax >= hsiz (as all callers do); the second theorem shows the hypothesis is needed."
  },
  {
   "property": "C03",
   "status": "proved",
   "theorems": [
    "Mmg.Hash.C03_face_table_is_map"
   ],
   "note": ""
  },
  {
   "property": "C04",
   "status": "proved",
   "theorems": [
    "Mmg.Adj.C04_tetra_adjacency_symmetric",
    "Mmg.Adj.C04_no_self_adjacency",
    "Mmg.Adj.C04_packing_needed"
   ],
   "note": "For packed element arrays (what the caller guarantees); the last theorem shows packing is needed."
  },
  {
   "property": "C05",
   "status": "proved",
   "theorems": [
    "Mmg.Adj.C05_tetra_adjacency_complete"
   ],
   "note": ""
  },
  {
   "property": "C06",
   "status": "proved",
   "theorems": [
    "Mmg.Adj.C06_tria_adjacency",
    "Mmg.Adj.C06_tria_boundary_iff"
   ],
   "note": "Unused triangles allowed."
  },
  {
   "property": "C07",
   "status": "partial",
   "theorems": [
    "Mmg.HTri.C07_surface_adjacency",
    "Mmg.HTri.C07_duplicate_marks_regular_edge",
    "Mmg.HTri.C07_duplicate_takes_link",
    "Mmg.HTri.C07_duplicate_kept"
   ],
   "note": "The full claim is proved for every triangulation without repeated triangles (all three passes, edge table with growth, implicit-surface rule, purely parallel sides). The last sentence (a repeated triangle has no effect) is false; three witnesses are proved: a regular edge marked non-manifold, a link to a discarded triangle, a repeated triangle that is not discarded."
  },
  {
   "property": "C08",
   "status": "proved",
   "theorems": [
    "Mmg.Pool.C08_point_slots",
    "Mmg.Pool.C08_count_is_highest_used",
    "Mmg.Pool.C08_double_delete_corrupts",
    "Mmg.Pool.C08_full_allocation_overflows",
    "Mmg.Pool.C08_failed_boundary_creation_leaks"
   ],
   "note": "Histories with growth. The last three theorems are counterexamples: unchecked double deletion, out-of-bounds first creation when npmax=np, lost slot when the xpoint table cannot grow."
  },
  {
   "property": "C09",
   "status": "proved",
   "theorems": [
    "Mmg.Pool.C09_element_slots"
   ],
   "note": "3D and 2D share the code shape (link field v[3] / v[2])."
  },
  {
   "property": "C10",
   "status": "proved",
   "theorems": [
    "Mmg.Pool.C10_pack_keeps_elements",
    "Mmg.Pool.C10_reachable_pools_can_be_packed"
   ],
   "note": ""
  },
  {
   "property": "C11",
   "status": "proved",
   "theorems": [
    "Mmg.Pack3.C11_pack_consistent",
    "Mmg.Pack3.C11_no_used_point",
    "Mmg.Pack3.C11_unused_prism_counted"
   ],
   "note": "Variant without Scotch. Hypotheses (Ready): at least one used point, valid elements refer to used points, symmetric adjacency, distinct solution arrays. A mesh without used point makes the code read before the array (C11_no_used_point); an unused prism may stay counted (C11_unused_prism_counted), valid ones are kept exactly once."
  },
  {
   "property": "C12",
   "status": "proved",
   "theorems": [
    "Mmg.Pack2.C12_pack_consistent",
    "Mmg.Pack2.C12_second_count_stale"
   ],
   "note": "Given symmetric adjacency and valid elements on used points. Finding: the number of values of the solution given as third argument is not updated (C12_second_count_stale)."
  },
  {
   "property": "C13",
   "status": "proved",
   "theorems": [
    "Mmg.Tri2.C13_split_interior_edge",
    "Mmg.Tri2.C13_split_boundary_edge"
   ],
   "note": "Slots come from the pool of C09; the new vertex is not already a vertex of the split triangles."
  },
  {
   "property": "C14",
   "status": "proved",
   "theorems": [
    "Mmg.Tri2.C14_swap"
   ],
   "note": "The two apexes must differ (guaranteed by the quality test done before)."
  },
  {
   "property": "C15",
   "status": "partial",
   "theorems": [
    "Mmg.Tri2.C15_split_triangle_partial",
    "Mmg.Tri2.C15_tags_misplaced"
   ],
   "note": "Triangles, links and areas proved; the tag part is false for tagged triangles (counterexample proved): the code clears the outer edges and keeps tags on inner ones."
  },
  {
   "property": "C16",
   "status": "proved",
   "theorems": [
    "Mmg.Tri2.C16_histories",
    "Mmg.Tri2.C16_area_conserved",
    "Mmg.Tri2.C16_circulation_is_boundary",
    "Mmg.Tri2.C16_histories_with_collapse",
    "Mmg.Tri2.C16_area_with_collapse"
   ],
   "note": ""
  },
  {
   "property": "C17",
   "status": "proved",
   "theorems": [
    "Mmg.Tri2.C17_ball",
    "Mmg.Tri2.C17_ball_failure"
   ],
   "note": "MMG5_boulet; the list capacity is a parameter."
  },
  {
   "property": "C18",
   "status": "proved",
   "theorems": [
    "Mmg.Mem.C18_memory_accounting",
    "Mmg.Mem.C18_refusal_drifts",
    "Mmg.Mem.C18_wraparound"
   ],
   "note": "Balance over all histories without refusal by the system; the two other theorems are counterexamples (counter drifts after a refused growth, wraparound accepted)."
  },
  {
   "property": "C19",
   "status": "proved",
   "theorems": [
    "Mmg.Oct.C19_octree_history"
   ],
   "note": "Exact coordinates; allocations succeed. Every pointer access, array write and assertion is modelled as a possible failure and proved not to fail."
  },
  {
   "property": "C20",
   "status": "partial",
   "theorems": [
    "Mmg.Oct.C20_search_complete_partial",
    "Mmg.Oct.C20_search_generic",
    "Mmg.Oct.C20_filter_partial",
    "Mmg.Oct.C20_filter_generic",
    "Mmg.Oct.C20_filter_midplane",
    "Mmg.Oct.C20_filter_overfull",
    "Mmg.Oct.C20_filter_off_midplane"
   ],
   "note": "Proved when the search reports some cell, and unconditionally for boxes whose lower corner has no dyadic coordinate in trees with at most nc-4 cells. False in general: the search gives up when the lower face of the box lies on a mid-plane (C20_filter_midplane) or when too many cells meet the box (C20_filter_overfull), and the filter then accepts any point."
  },
  {
   "property": "C21",
   "status": "proved",
   "theorems": [
    "Mmg.Mat.C21_inverse_map",
    "Mmg.Mat.C21_set_material",
    "Mmg.Mat.C21_later_reference_out_of_bounds",
    "Mmg.Mat.C21_replaced_attribute_unchecked",
    "Mmg.Mat.C21_full_table_frozen"
   ],
   "note": "For references seen when the table is built. Findings proved: a reference that enters the mesh later is looked up out of bounds; replacing a row does not check the split attribute and can corrupt the map."
  },
  {
   "property": "C22",
   "status": "partial",
   "theorems": [
    "Mmg.Mat.C22_is_split",
    "Mmg.Mat.C22_is_level_set",
    "Mmg.Mat.C22_is_not_split_inverted_partial",
    "Mmg.Mat.C22_is_not_split_false"
   ],
   "note": "The split and level-set parts are proved. The not-to-be-split query answers the opposite of the claim (proved, with counterexample)."
  },
  {
   "property": "C23",
   "status": "proved",
   "theorems": [
    "Mmg.Api.C23_vertex_round_trip",
    "Mmg.Api.C23_histories_run",
    "Mmg.Api.C23_out_of_range",
    "Mmg.Api.C23_position_zero_accepted",
    "Mmg.Api.C23_beyond_size_refused"
   ],
   "note": "Any history of the 32 modelled calls. Position 0 is accepted and negative positions are undefined behaviour (proved)."
  },
  {
   "property": "C24",
   "status": "proved",
   "theorems": [
    "Mmg.Api.C24_set_tetrahedron",
    "Mmg.Api.C24_set_tetrahedra",
    "Mmg.Api.C24_set_tetrahedra_refused",
    "Mmg.Api.C24_positive_kept",
    "Mmg.Api.C24_vertices_used",
    "Mmg.Api.C24_get_tetrahedra"
   ],
   "note": "Exact arithmetic over any ordered ring, threshold a parameter. Null elements are refused but stay stored (proved); the block call counts in another counter than the single call (proved)."
  },
  {
   "property": "C25",
   "status": "partial",
   "theorems": [
    "Mmg.Api.C25_triangle_round_trip",
    "Mmg.Api.C25_quadrilateral_round_trip",
    "Mmg.Api.C25_edge_round_trip",
    "Mmg.Api.C25_prism_round_trip_partial",
    "Mmg.Api.C25_prism_round_trip_false"
   ],
   "note": "Triangles, quadrilaterals, edges proved over all histories. For prisms the block getter exchanges vertices 1 and 2: counterexample proved and the partial theorem says exactly what is returned."
  },
  {
   "property": "C26",
   "status": "partial",
   "theorems": [
    "Mmg.Cursor.C26_sweeps",
    "Mmg.Cursor.C26_static_sweeps_partial",
    "Mmg.Cursor.C26_prisms_interleaved_false",
    "Mmg.Cursor.C26_prisms_stuck_false",
    "Mmg.Cursor.C26_prisms_resized_false",
    "Mmg.Cursor.C23_sequential"
   ],
   "note": "Proved for vertices, tetrahedra, triangles, edges over all interleavings. Prisms and quadrilaterals use static cursors shared by all meshes: three counterexamples and a partial theorem for one mesh."
  },
  {
   "property": "C27",
   "status": "proved",
   "theorems": [
    "Mmg.Sol.C27_round_trip",
    "Mmg.Sol.C27_setting",
    "Mmg.Sol.C27_histories_run",
    "Mmg.Sol.C27_last_position_refused",
    "Mmg.Sol.C27_set_ith_ignores_refusal",
    "Mmg.Sol.C27_get_ith_wraps"
   ],
   "note": "All histories of single, block and indexed calls. Findings proved: last position refused when the array is full, refusals ignored for vectors and tensors, index np+1 wraps to entry 1."
  },
  {
   "property": "C28",
   "status": "proved",
   "theorems": [
    "Mmg.Par.C28_last_value_wins",
    "Mmg.Par.C28_acceptance",
    "Mmg.Par.C28_full_table_frozen"
   ],
   "note": "Refinement to a finite map over all histories, including new announcements of the number. A full table refuses new values even for existing pairs (proved)."
  },
  {
   "property": "C29",
   "status": "proved",
   "theorems": [
    "Mmg.Api.C29_vertex_flags",
    "Mmg.Api.C29_triangle_flags",
    "Mmg.Api.C29_edge_flags",
    "Mmg.Api.C29_tetrahedron_flags"
   ],
   "note": "Any initial tags, any history of the 32 modelled calls; rewriting a vertex clears its flags."
  },
  {
   "property": "C30",
   "status": "partial",
   "theorems": [
    "Mmg.Iso.C30_triangles_partial",
    "Mmg.Iso.C30_triangles_kept_partial",
    "Mmg.Iso.C30_triangles_last_partial",
    "Mmg.Iso.C30_edges_partial",
    "Mmg.Iso.C30_false",
    "Mmg.Iso.C30_edges_false",
    "Mmg.Iso.lastKept_exists"
   ],
   "note": "False: the last kept entity is duplicated in the place of every removed one before it (counterexamples). The exact result of the code is proved; the full claim is proved when the isosurface entities come last."
  },
  {
   "property": "C31",
   "status": "proved",
   "theorems": [
    "Mmg.Scale.C31_unit_box",
    "Mmg.Scale.C31_restored",
    "Mmg.Scale.C31_scalar_metric",
    "Mmg.Scale.C31_unscale_twice",
    "Mmg.Scale.C31_unused_not_restored",
    "Mmg.Scale.C31_failure_leaves_scaled",
    "Mmg.Scale.truncAni3_frame"
   ],
   "note": "Exact arithmetic. Tensor truncation is a parameter with a frame hypothesis, met by the modelled 3D truncation (truncAni3_frame). Findings: values at unused vertices are scaled but not restored; a failed scaling leaves the mesh scaled."
  },
  {
   "property": "C32",
   "status": "partial",
   "theorems": [
    "Mmg.Scale.C32_rejected_partial",
    "Mmg.Scale.C32_valid_accepted",
    "Mmg.Scale.C32_never_again",
    "Mmg.Scale.C32_second_accepted_false"
   ],
   "note": "False in general: a static flag makes the routine reject an invalid metric only the first time in a process (C32_second_accepted_false). Proved for the first invalid metric of the process."
  },
  {
   "property": "C33",
   "status": "partial",
   "theorems": [
    "Mmg.Scale.C33_truncated_partial",
    "Mmg.Scale.C33_contradictory_false"
   ],
   "note": "Proved unless the user gives hmin > hmax: this is accepted silently and sizes end below hmin (C33_contradictory_false)."
  },
  {
   "property": "C34",
   "status": "proved",
   "theorems": [
    "Mmg.Scale.C34_default_bounds",
    "Mmg.Scale.C34_constant_size",
    "Mmg.Scale.C34_zero_bound"
   ],
   "note": "A user-given hmax of zero yields hmin = 0 (C34_zero_bound), hence the positivity in the quantifier."
  },
  {
   "property": "C35",
   "status": "proved",
   "theorems": [
    "Mmg.Grad.C35_edges",
    "Mmg.Grad.C35_triangles",
    "Mmg.Grad.C35_tetrahedra"
   ],
   "note": "Edge length is a parameter (symmetric, non-negative)."
  },
  {
   "property": "C36",
   "status": "partial",
   "theorems": [
    "Mmg.LinAlg.C36_inverse_2x2",
    "Mmg.LinAlg.C36_inverse_3x3_general",
    "Mmg.LinAlg.C36_inverse_3x3_2d",
    "Mmg.LinAlg.C36_inverse_3x3_sym_partial",
    "Mmg.LinAlg.C36_inverse_3x3_sym_false",
    "Mmg.LinAlg.C36_inverse_3x3_sym_inf",
    "Mmg.LinAlg.C36_solver",
    "Mmg.LinAlg.C36_congruence",
    "Mmg.LinAlg.C36_product"
   ],
   "note": "Exact arithmetic. The symmetric inversion drops off-diagonal entries below 1e-6, so the full claim is false (counterexamples proved); it holds outside that shortcut."
  },
  {
   "property": "C37",
   "status": "proved",
   "theorems": [
    "Mmg.Sort.C37_sort",
    "Mmg.Sort.C37_permute",
    "Mmg.Sort.C37_sort_and_permute"
   ],
   "note": ""
  },
  {
   "property": "C38",
   "status": "partial",
   "theorems": [
    "Mmg.Name.C38_extension",
    "Mmg.Name.C38_hidden_file_false",
    "Mmg.Name.C38_remove_partial",
    "Mmg.Name.C38_remove_default_partial",
    "Mmg.Name.C38_remove_false",
    "Mmg.Name.C38_path",
    "Mmg.Name.C38_format",
    "Mmg.Name.C38_format_of_name"
   ],
   "note": "Extension finder characterised for every string: proved, except that 'dir/.name' is given the extension '.name' (C38_hidden_file_false) and '.o' is never an extension. Removal uses the first occurrence instead of the last: refuted in general, proved when the extension does not occur earlier in the path."
  },
  {
   "property": "C39",
   "status": "proved",
   "theorems": [
    "Mmg.Sub.C39_kept_elements",
    "Mmg.Sub.C39_no_choice"
   ],
   "note": "For triangles and tetrahedra (n vertices and n faces), any mesh with reciprocal links, with or without adjacency table."
  },
  {
   "property": "C40",
   "status": "proved",
   "theorems": [
    "Mmg.Sub.C40_valid_vertices"
   ],
   "note": "The isolated required vertices that were already invalid with a stale flag are not restored (in the statement)."
  },
  {
   "property": "C41",
   "status": "proved",
   "theorems": [
    "Mmg.Split3.split1_halves",
    "Mmg.Split3.half_volumes",
    "Mmg.Split3.halves_share_one_face",
    "Mmg.Split3.split1_two_halves"
   ],
   "note": ""
  },
  {
   "property": "C42",
   "status": "proved",
   "theorems": [
    "Mmg.Adj.C42_prism_adjacency_conforming",
    "Mmg.Adj.C42_prism_adjacency_partial",
    "Mmg.Adj.C42_prism_confusion"
   ],
   "note": "Symmetry for all meshes, exact faces for conforming meshes; C42_prism_confusion is a counterexample for non-conforming ones."
  },
  {
   "property": "C43",
   "status": "proved",
   "theorems": [
    "Mmg.LinAlg.C43_rotation"
   ],
   "note": "Real arithmetic."
  },
  {
   "property": "C44",
   "status": "partial",
   "theorems": [
    "Mmg.Tri2.C44_neighbours_partial",
    "Mmg.Tri2.C44_open_fan_false"
   ],
   "note": "Closed fans proved. For open fans the statement is false: the reverse loop crosses the edge opposite to the vertex (counterexample proved)."
  },
  {
   "property": "C45",
   "status": "partial",
   "theorems": [
    "Mmg.Tri2.C45_collapse_interior",
    "Mmg.Tri2.C45_collapse_boundary",
    "Mmg.Tri2.C45_collapse3",
    "Mmg.Tri2.C45_collapse2_partial",
    "Mmg.Tri2.C45_two_triangles_tag_false"
   ],
   "note": "Full claim for MMG2D_colver and MMG2D_colver3. For a boundary vertex with two triangles the equality of the tags on both sides needs an untagged inner edge (counterexample proved without it)."
  },
  {
   "property": "C46",
   "status": "partial",
   "theorems": [
    "Mmg.Split3.split_total",
    "Mmg.Split3.split_inherits_partial",
    "Mmg.Split3.split6_tags_partial",
    "Mmg.Split3.split3op_ori_wrong",
    "Mmg.Split3.split6_tags_wrong"
   ],
   "note": "Proved for every pattern except two defects of the code, each refuted with a witness: one branch of the three-opposite-edges split loses the orientation flag of a boundary face, and the six-edge split reads an uninitialised tag for one edge and the wrong face tag for another."
  },
  {
   "property": "C47",
   "status": "proved",
   "theorems": [
    "Mmg.Split3.split_volume_sum",
    "Mmg.Split3.split_volume_nonneg",
    "Mmg.Split3.split_volume_pos"
   ],
   "note": "Exact arithmetic over any ordered field."
  },
  {
   "property": "C48",
   "status": "proved",
   "theorems": [
    "Mmg.Split3.split_faces",
    "Mmg.Split3.splitOne_faces",
    "Mmg.Split3.splitAll_conforming",
    "Mmg.Split3.splitAll_volume",
    "Mmg.Split3.splitAll_skips_one_side"
   ],
   "note": "Under the hypothesis that no tetrahedron ignores a point of its edges; splitAll_skips_one_side shows that the code can ignore one (required edge, one side without boundary record) and the mesh is then not conforming."
  },
  {
   "property": "C49",
   "status": "proved",
   "theorems": [
    "Mmg.Split3.sim_iff",
    "Mmg.Split3.dichoto_valid",
    "Mmg.Split3.dichoto_moves",
    "Mmg.Split3.dichoto_succeeds"
   ],
   "note": "Exact arithmetic."
  },
  {
   "property": "C50",
   "status": "proved",
   "theorems": [
    "Mmg.Split3.star_adjacency",
    "Mmg.Split3.star_inherits",
    "Mmg.Split3.star_volume",
    "Mmg.Split3.star_faces"
   ],
   "note": ""
  },
  {
   "property": "C52",
   "status": "proved",
   "theorems": [
    "Mmg.Scale.C52_truncated",
    "Mmg.Scale.C52_size_two_false",
    "Mmg.Scale.truncAni3_frame"
   ],
   "note": "The diagonalisation is a parameter with its specification. With automatic bounds a metric of uniform size two (in units of the mesh extent) is replaced by a tiny size: C52_size_two_false."
  },
  {
   "property": "C53",
   "status": "proved",
   "theorems": [
    "Mmg.Grad.C53_required",
    "Mmg.Grad.C53_vertical_edge_false"
   ],
   "note": "The length is the one used by the code; for surface meshes it ignores the third coordinate (C53_vertical_edge_false)."
  },
  {
   "property": "C54",
   "status": "partial",
   "theorems": [
    "Mmg.Pack3.C54_normals_partial",
    "Mmg.Pack3.C54_last_normal_missing"
   ],
   "note": "False for the vertex that keeps the last number (C54_last_normal_missing); proved for all others."
  },
  {
   "property": "C55",
   "status": "partial",
   "theorems": [
    "Mmg.Pack3.C55_free_list_partial",
    "Mmg.Pack3.C55_free_list_false"
   ],
   "note": "False if the last slot was used and deleted before: a stale link then leads to a used point (C55_free_list_false). Proved if the last slot was never used."
  },
  {
   "property": "C56",
   "status": "partial",
   "theorems": [
    "Mmg.Pack2.C56_edge_table",
    "Mmg.Pack2.C56_once_partial",
    "Mmg.Pack2.C56_required_twice",
    "Mmg.Pack2.C56_first_triangle_twice",
    "Mmg.Pack2.C56_quad_edge_lookup"
   ],
   "note": "C56_edge_table is exact for all meshes. 'Exactly once' is proved without quadrilaterals and open boundaries (C56_once_partial); it is false for required edges inside a domain (C56_required_twice) and for a quadrilateral beside side 0 of triangle 1 (C56_first_triangle_twice). The triangle look-up is wrong for edges of quadrilaterals (C56_quad_edge_lookup)."
  },
  {
   "property": "C57",
   "status": "partial",
   "theorems": [
    "Mmg.Oct.C57_move_partial",
    "Mmg.Oct.C57_move_ignored",
    "Mmg.Oct.C57_move_then_delete",
    "Mmg.Oct.C57_same_code"
   ],
   "note": "Proved when the mesh already holds the new coordinates and the codes differ. False otherwise: with the old coordinates in the mesh (as at all call sites) the move is ignored (C57_move_ignored, C57_move_then_delete); positions of equal code in different cells are not moved either (C57_same_code)."
  },
  {
   "property": "C58",
   "status": "partial",
   "theorems": [
    "Mmg.Swap23.C58_swap_mesh",
    "Mmg.Swap23.C58_swap_data_partial",
    "Mmg.Swap23.C58_orientation_lost"
   ],
   "note": "Adjacency, vertices, volume, references, tags, edges and slots proved for all configurations. The orientation bit of a boundary face of the neighbour is only set, never cleared (C58_orientation_lost); the proved value is the disjunction with the bit of the common face."
  },
  {
   "property": "C59",
   "status": "partial",
   "theorems": [
    "Mmg.Shell.C59_shell",
    "Mmg.Shell.C59_no_shell",
    "Mmg.Shell.Ex.C59_start_required"
   ],
   "note": "Proved but for one point: a required tetrahedron prevents the list only when it is not the given one (Ex.C59_start_required)."
  },
  {
   "property": "C60",
   "status": "proved",
   "theorems": [
    "Mmg.Shell.C60_settag",
    "Mmg.Shell.C60_deltag",
    "Mmg.Shell.C60_settag_agree"
   ],
   "note": ""
  },
  {
   "property": "C61",
   "status": "partial",
   "theorems": [
    "Mmg.Shell.C61_get",
    "Mmg.Shell.C61_get_agree",
    "Mmg.Shell.C61_srcbdy",
    "Mmg.Shell.C61_update_partial",
    "Mmg.Shell.Ex.C61_get_ref_lost",
    "Mmg.Shell.Ex.C61_update_stops"
   ],
   "note": "Tag search and boundary search proved. The given reference may be changed when no tetrahedron knows the edge (Ex.C61_get_ref_lost); the update is complete only when no tetrahedron has the data before (C61_update_partial, Ex.C61_update_stops)."
  },
  {
   "property": "C62",
   "status": "proved",
   "theorems": [
    "Mmg.Boule3.C62_ball",
    "Mmg.Boule3.C62_no_ball",
    "Mmg.Boule3.C62_rounds",
    "Mmg.Boule3.Ex.C62_touching"
   ],
   "note": "Tetrahedra that hold the vertex but are not joined to the given one by such faces are not in the list (Ex.C62_touching)."
  },
  {
   "property": "C63",
   "status": "partial",
   "theorems": [
    "Mmg.Colver.C63_safe",
    "Mmg.Colver.C63_mesh",
    "Mmg.Colver.C63_faces",
    "Mmg.Colver.C63_data",
    "Mmg.Colver.C63_twins",
    "Mmg.Colver.Ex.C63_negative_ref",
    "Mmg.Colver.Ex.C63_inner_lost"
   ],
   "note": "Proved for references that are not negative, but for one point: when the face with p is on the outside, the merged face gets the data of that face only (C63_data, Ex.C63_inner_lost). Edge tags are not modelled. C63_twins needs that all equal faces are linked before."
  },
  {
   "property": "C64",
   "status": "proved",
   "theorems": [
    "Mmg.Delone.C64_total",
    "Mmg.Delone.C64_refused",
    "Mmg.Delone.C64_tets",
    "Mmg.Delone.C64_mesh",
    "Mmg.Delone.C64_links",
    "Mmg.Delone.C64_oriented",
    "Mmg.Delone.C64_volume",
    "Mmg.Delone.C64_records",
    "Mmg.Delone.C64_pinched"
   ],
   "note": "The hypothesis on the edges of the surface is not tested by the function; without it the links may be wrong (C64_pinched). New record slots are not cleared by the function: blank slots above the last one are part of Slots. The allocation of the new tetrahedra is not part of the model."
  },
  {
   "property": "C65",
   "status": "proved",
   "theorems": [
    "Mmg.Cavity.C65_total",
    "Mmg.Cavity.C65_set",
    "Mmg.Cavity.C65_surface",
    "Mmg.Cavity.C65_boundary",
    "Mmg.Cavity.C65_reference",
    "Mmg.Cavity.C65_maximal",
    "Mmg.Cavity.C65_refused",
    "Mmg.Cavity.C65_marks",
    "Mmg.Cavity.sound_iso",
    "Mmg.Cavity.sound_ani",
    "Mmg.Cavity.C65_insert",
    "Mmg.Cavity.C65_insert_boundary"
   ],
   "note": "Exact arithmetic. The circumscribed spheres are a parameter: nothing is said about the Delaunay property."
  },
  {
   "property": "C66",
   "status": "proved",
   "theorems": [
    "Mmg.Over.C66_oriented",
    "Mmg.Over.C66_insert",
    "Mmg.Over.C66_collapse",
    "Mmg.Over.C66_swap",
    "Mmg.Over.C66_move",
    "Mmg.Over.C66_history",
    "Mmg.Over.Ex.C66_boundary_needed"
   ],
   "note": "Exact arithmetic. The positive volumes of the new tetrahedra are hypotheses of the steps (tests of the code before the operations)."
  },
  {
   "property": "C67",
   "status": "proved",
   "theorems": [
    "Mmg.Qual.C67_iso_range",
    "Mmg.Qual.C67_iso_zero",
    "Mmg.Qual.C67_iso_one",
    "Mmg.Qual.C67_iso_valid",
    "Mmg.Qual.C67_iso_shape",
    "Mmg.Qual.C67_iso_order",
    "Mmg.Qual.C67_ani_range",
    "Mmg.Qual.C67_ani_one",
    "Mmg.Qual.C67_mean",
    "Mmg.Qual.C67_ani_iso",
    "Mmg.Qual.C67_ani_indefinite",
    "Mmg.Qual.C67_constant",
    "Mmg.Qual.C67_tri_ani",
    "Mmg.Qual.C67_tri_iso",
    "Mmg.Qual.C67_tri_constant",
    "Mmg.Qual.C67_volume"
   ],
   "note": "Real arithmetic; rounding is not modelled. The metrics of ridge points (special storage) are not modelled: the mean metric is given."
  },
  {
   "property": "C68",
   "status": "proved",
   "theorems": [
    "Mmg.Histo.C68_stats",
    "Mmg.Histo.C68_worst",
    "Mmg.Histo.C68_verdict",
    "Mmg.Histo.C68_rows",
    "Mmg.Histo.C68_no_row",
    "Mmg.Histo.C68_stats_out",
    "Mmg.Histo.C68_verdict_out",
    "Mmg.Histo.C68_average",
    "Mmg.Histo.C68_input",
    "Mmg.Histo.C68_agree",
    "Mmg.Histo.C68_les_verdict",
    "Mmg.Histo.C68_ridge_observed",
    "Mmg.Histo.C68_verbosity_observed"
   ],
   "note": "Qualities are given; the texts are not modelled."
  },
  {
   "property": "C69",
   "status": "proved",
   "theorems": [
    "Mmg.Move.C69_move",
    "Mmg.Move.C69_quality",
    "Mmg.Move.C69_worst",
    "Mmg.Move.C69_valid",
    "Mmg.Move.C69_hull",
    "Mmg.Move.C69_octree",
    "Mmg.Move.C69_collapse_test",
    "Mmg.Move.C69_collapse",
    "Mmg.Move.C69_iso",
    "Mmg.Move.C69_history",
    "Mmg.Move.Ex.C69_octree_observed"
   ],
   "note": "Exact arithmetic. The quality is a function of the four points (isotropic case); the tests of lengths and the tests on new edges between boundary points are parameters."
  },
  {
   "property": "C70",
   "status": "partial",
   "theorems": [
    "Mmg.Chk.C70_accept",
    "Mmg.Chk.C70_links",
    "Mmg.Chk.C70_inside",
    "Mmg.Chk.C70_2d_accept",
    "Mmg.Chk.C70_2d_severe",
    "Mmg.Chk.C70_surface",
    "Mmg.Chk.Ex.C70_folded_observed",
    "Mmg.Chk.Ex.C70_negative_observed",
    "Mmg.Chk.Ex.C70_unlinked_observed",
    "Mmg.Chk.Ex.C70_2d_vertices_observed",
    "Mmg.Chk.Ex.C70_2d_pinch_observed",
    "Mmg.Chk.Ex.C70_2d_ref0_observed",
    "Mmg.Chk.Ex.C70_surface_open_observed"
   ],
   "note": "Equivalences proved for the 3D check, the first parts of the 2D and surface checks; for the severe part of the 2D check one direction (it rejects some valid meshes: Ex.C70_2d_pinch_observed, Ex.C70_2d_ref0_observed). The severe part of the surface check is not modelled. Not seen by the checks: orientation, missing links, negative references in 3D; untagged open edges on surfaces."
  },
  {
   "property": "C71",
   "status": "partial",
   "theorems": [
    "Mmg.Param.C71_set_get",
    "Mmg.Param.C71_frame",
    "Mmg.Param.C71_not_taken",
    "Mmg.Param.C71_frame_real",
    "Mmg.Param.C71_history",
    "Mmg.Param.C71_refused",
    "Mmg.Param.C71_angle",
    "Mmg.Param.C71_real_bounds",
    "Mmg.Param.C71_gradation",
    "Mmg.Param.C71_2d_sizes",
    "Mmg.Param.C71_base",
    "Mmg.Param.C71_base_partial",
    "Mmg.Param.Ex.C71_unreadable_observed",
    "Mmg.Param.Ex.C71_wrap_observed",
    "Mmg.Param.Ex.C71_mem_observed",
    "Mmg.Param.Ex.C71_angle_observed",
    "Mmg.Param.Ex.C71_surface_iso_observed",
    "Mmg.Param.Ex.C71_base_observed",
    "Mmg.Param.Ex.C71_null_observed",
    "Mmg.Param.Ex.C71_2d_refused_observed",
    "Mmg.Param.Ex.C71_3d_sizes_observed",
    "Mmg.Param.Ex.C71_xreg_observed"
   ],
   "note": "The base references of 3D need that none was given before (false otherwise: Ex.C71_base_observed). 3D and surface for what is read: there is no function to read a parameter in 2D."
  },
  {
   "property": "C72",
   "status": "partial",
   "theorems": [
    "Mmg.Limit.C72_set_size",
    "Mmg.Limit.C72_room",
    "Mmg.Limit.C72_lower_partial",
    "Mmg.Limit.C72_pack",
    "Mmg.Limit.C72_memory",
    "Mmg.Limit.Ex.C72_raise_observed",
    "Mmg.Limit.Ex.C72_same_value_observed",
    "Mmg.Limit.Ex.C72_refused_observed",
    "Mmg.Limit.Ex.C72_physical_observed"
   ],
   "note": "The limits stay inside the arrays only if the memory was not given before the declaration of the sizes and is not raised after it; the code violates it otherwise. Edges are not counted by the code for the needed memory and are left out of C72_room."
  },
  {
   "property": "C73",
   "status": "proved",
   "theorems": [
    "Mmg.Io.C73_ascii",
    "Mmg.Io.C73_binary",
    "Mmg.Io.C73_numbers",
    "Mmg.Io.C73_again_ascii",
    "Mmg.Io.C73_again_binary",
    "Mmg.Io.C73_no_tetra",
    "Mmg.Io.C73_stale",
    "Mmg.Io.Ex.C73_parallel_observed",
    "Mmg.Io.Ex.C73_isolated_observed",
    "Mmg.Io.Ex.C73_quad_observed",
    "Mmg.Io.Ex.C73_tangent_observed",
    "Mmg.Io.Ex.C73_binary_stale_observed"
   ],
   "note": "Files are lists of words, integers and reals; printing of a real is a function. Quadrilaterals are assumed used in the main theorems (a witness shows the defect when they are not). The tangents, which are written but not read, and files of the other byte order are outside."
  },
  {
   "property": "C74",
   "status": "partial",
   "theorems": [
    "Mmg.Ls3.C74_snap",
    "Mmg.Ls3.C74_points",
    "Mmg.Ls3.C74_sides",
    "Mmg.Ls3.C74_conform_partial",
    "Mmg.Ls3.C74_volume",
    "Mmg.Ls3.C74_data",
    "Mmg.Ls3.C74_refs",
    "Mmg.Ls3.C74_interface",
    "Mmg.Ls3.C74_restart",
    "Mmg.Ls3.Ex.C74_hanging_observed",
    "Mmg.Ls3.Ex.C74_only_unsplit_observed",
    "Mmg.Ls3.Ex.C74_memory_observed",
    "Mmg.Ls3.Ex.C74_memory_points_observed"
   ],
   "note": "The mesh is conforming if no tetrahedron of a reference that is not split has two positive and two negative vertices; a witness shows the hanging node otherwise. The table of edges is assumed to get its memory (witnesses show what happens otherwise). The test on the ball (MMG3D_ismaniball) is a parameter; the removal of small components and the metric are outside."
  },
  {
   "property": "C75",
   "status": "proved",
   "theorems": [
    "Mmg.Ls2.C75_snap",
    "Mmg.Ls2.C75_points",
    "Mmg.Ls2.C75_sides",
    "Mmg.Ls2.C75_conform",
    "Mmg.Ls2.C75_area",
    "Mmg.Ls2.C75_point_refs",
    "Mmg.Ls2.C75_refs",
    "Mmg.Ls2.C75_front_points",
    "Mmg.Ls2.C75_interface",
    "Mmg.Ls2.C75_restart",
    "Mmg.Ls2.Ex.C75_lone_observed",
    "Mmg.Ls2.Ex.C75_inner_unsplit_observed",
    "Mmg.Ls2.Ex.C75_flat_observed",
    "Mmg.Ls2.Ex.C75_only_unsplit_observed"
   ],
   "note": "The table of edges is assumed to get its memory; the tests on the balls (MMG5_ismaniball, MMG5_boulet) are parameters; the removal of small components, the check of the result and the metric are outside. Witnesses show a vertex of the level set taken for an isolated zero, an edge inside an unsplit part marked as on the level set, a triangle with three zeros, and the error when only unsplit parts are crossed."
  },
  {
   "property": "C76",
   "status": "proved",
   "theorems": [
    "Mmg.Rmc.C76_phase",
    "Mmg.Rmc.C76_exists",
    "Mmg.Rmc.C76_left",
    "Mmg.Rmc.C76_rmc",
    "Mmg.Rmc.C76_negative",
    "Mmg.Rmc.C76_zero",
    "Mmg.Rmc.C76_area",
    "Mmg.Rmc.C76_area_sum",
    "Mmg.Rmc.C76_volume",
    "Mmg.Rmc.C76_volume_sum",
    "Mmg.Rmc.C76_tetra",
    "Mmg.Rmc.C76_tria",
    "Mmg.Rmc.Ex.C76_projected_observed",
    "Mmg.Rmc.Ex.C76_small_positive_observed"
   ],
   "note": "The memory of the pile is assumed to be given. Witnesses show that on surfaces the areas are those of the projection on the plane of the first two coordinates, so that a large vertical part is removed, and that a removed negative part surrounded by null values leaves a positive part that is too small."
  },
  {
   "property": "C77",
   "status": "proved",
   "theorems": [
    "Mmg.Mani.C77_closed",
    "Mmg.Mani.C77_open",
    "Mmg.Mani.C77_closed_keep",
    "Mmg.Mani.C77_open_keep",
    "Mmg.Mani.C77_mesh",
    "Mmg.Mani.Ex.C77_mirror_observed",
    "Mmg.Mani.Ex.C77_dangling_observed"
   ],
   "note": "Release mode (assertions are not evaluated); the first check only warns and is left out. Witnesses: with three materials at a vertex of the boundary, the verdict on a mesh and on its mirror image differ; with the references kept, a curve ending inside the surface is accepted."
  },
  {
   "property": "C78",
   "status": "proved",
   "theorems": [
    "Mmg.Bdry.C78_triangles",
    "Mmg.Bdry.C78_number",
    "Mmg.Bdry.C78_points",
    "Mmg.Bdry.C78_open",
    "Mmg.Bdry.C78_new",
    "Mmg.Bdry.C78_last",
    "Mmg.Bdry.C78_perm",
    "Mmg.Bdry.Ex.C78_ref2_observed",
    "Mmg.Bdry.Ex.C78_points_iso_observed"
   ],
   "note": "Allocation failures are not modelled (the code ignores these return values). Preservation of internal triangles: without prism for the first analysis. Vertices: the level-set mode with prisms is a witness to the contrary. The orientation of a given triangle facing a tetrahedron of reference 2 is not corrected (witness)."
  },
  {
   "property": "C79",
   "status": "proved",
   "theorems": [
    "Mmg.Bdry.C79_classic",
    "Mmg.Bdry.C79_open",
    "Mmg.Bdry.C79_refs",
    "Mmg.Bdry.C79_refs_open",
    "Mmg.Bdry.C79_user",
    "Mmg.Bdry.C79_user_open",
    "Mmg.Bdry.Ex.C79_lost_observed",
    "Mmg.Bdry.Ex.C79_noside_observed"
   ],
   "note": "Edge tags (MMG5_settag), prisms and parallel tags are not modelled; MMG5_setadj (flips of triangles) is left out. Witness: with preservation of internal triangles a triangle between references 1 and 2 can be lost."
  },
  {
   "property": "C80",
   "status": "proved",
   "theorems": [
    "Mmg.Orient.C80_ends",
    "Mmg.Orient.C80_same_surface",
    "Mmg.Orient.C80_oriented",
    "Mmg.Orient.C80_error_only_if_not_orientable",
    "Mmg.Orient.C80_oriented_unchanged",
    "Mmg.Orient.C80_after_C07",
    "Mmg.Orient.C80_left_out",
    "Mmg.Orient.C80_required_vertices",
    "Mmg.Orient.C80_moebius_accepted_observed"
   ],
   "note": "The numbering point[].tmp and the counters for messages are not modelled. Witness: a surface that cannot be oriented may be accepted and left with contradictory orientations."
  },
  {
   "property": "C81",
   "status": "proved",
   "theorems": [
    "Mmg.Met2.C81_reduction",
    "Mmg.Met2.C81_covers",
    "Mmg.Met2.C81_metric",
    "Mmg.Met2.C81_succeeds",
    "Mmg.Met2.C81_covers_all",
    "Mmg.Met2.C81_hmax",
    "Mmg.Met2.C81_hmin_observed"
   ],
   "note": "Real arithmetic, exact square root. Witness: the result may ask for a size smaller than hmin although both metrics respect it and the code truncates (along directions that are not orthogonal)."
  },
  {
   "property": "C82",
   "status": "proved",
   "theorems": [
    "Mmg.Met2.C82_between",
    "Mmg.Met2.C82_range",
    "Mmg.Met2.C82_sizes",
    "Mmg.Met2.C82_range_all",
    "Mmg.Met2.C82_iso",
    "Mmg.Met2.C82_endpoint_observed"
   ],
   "note": "Real arithmetic, exact square root. Witness: for proportional metrics, if the off-diagonal term of the second is below the tolerance that of the first is dropped, and the metric of the first end is not given back."
  },
  {
   "property": "C83",
   "status": "proved",
   "theorems": [
    "Mmg.Edge2.C83_analysis",
    "Mmg.Edge2.C83_analysis_quads",
    "Mmg.Edge2.C83_consistent",
    "Mmg.Edge2.C83_edges",
    "Mmg.Edge2.C83_square",
    "Mmg.Edge2.C83_required_vertex_lost_observed",
    "Mmg.Edge2.C83_required_vertex_kept_observed",
    "Mmg.Edge2.C83_required_edge_order_observed"
   ],
   "note": "Witnesses: with -nosurf a vertex required by the user that lies on an interface loses its status at the final packing; whether the vertices of a required edge keep theirs depends on the place of the edge in its triangle."
  },
  {
   "property": "C84",
   "status": "proved",
   "theorems": [
    "Mmg.UEdge.C84_assign",
    "Mmg.UEdge.C84_quad_sides",
    "Mmg.UEdge.C84_round_trip",
    "Mmg.UEdge.C84_duplicate_observed",
    "Mmg.UEdge.C84_required_side_dropped_observed"
   ],
   "note": "The round trip is about a mesh that is analysed and packed without modification in between. Witnesses: of two edges between the same vertices the second is ignored; at the first call the sides required on a triangle are forgotten unless all three are."
  },
  {
   "property": "C85",
   "status": "proved",
   "theorems": [
    "Mmg.Spl1b.C85_mesh",
    "Mmg.Spl1b.C85_succeeds",
    "Mmg.Spl1b.C85_boundary",
    "Mmg.Spl1b.C85_faces",
    "Mmg.Spl1b.C85_edges",
    "Mmg.Spl1b.C85_shell",
    "Mmg.Spl1b.C85_volume",
    "Mmg.Spl1b.C85_good",
    "Mmg.Spl1b.C85_history"
   ],
   "note": "The creation of the new vertex and its metric, the ridge and quality updates that follow are not part of it; when an allocation is refused in the middle the mesh is left half cut, as in the code."
  },
  {
   "property": "C86",
   "status": "proved",
   "theorems": [
    "Mmg.Swpg.C86_safe",
    "Mmg.Swpg.C86_swap",
    "Mmg.Swpg.C86_edge_gone",
    "Mmg.Swpg.C86_fem",
    "Mmg.Swpg.C86_no_locked_tetra",
    "Mmg.Swpg.C86_lost",
    "Mmg.Swpg.C86_history"
   ],
   "note": "C86_lost is the case excluded in the others: when the ball of the middle vertex does not fit in the list the vertex is given back though tetrahedra have it. The creation of the vertex and its metric are not modelled."
  },
  {
   "property": "C87",
   "status": "proved",
   "theorems": [
    "Mmg.Ridge.C87_edges",
    "Mmg.Ridge.C87_other_edges",
    "Mmg.Ridge.C87_vertices",
    "Mmg.Ridge.C87_agree",
    "Mmg.Ridge.C87_mmgs",
    "Mmg.Ridge.C87_ends",
    "Mmg.Ridge.C87_singular",
    "Mmg.Ridge.C87_words",
    "Mmg.Ridge.C87_vertex_lost_observed"
   ],
   "note": "C87_vertex_lost_observed: an end of a ridge on the border of the surface can lose its mark when another ridge at it is removed. The last loops of the function of mmgs are not modelled."
  },
  {
   "property": "C88",
   "status": "proved",
   "theorems": [
    "Mmg.Renum.C88_same",
    "Mmg.Renum.C88_free",
    "Mmg.Renum.C88_no_memory",
    "Mmg.Renum.C88_failed_partition_observed"
   ],
   "note": "C88_failed_partition_observed: a failure of the partitioner is taken for a success, and a mesh with free slots then loses tetrahedra. Adjacency after the renumbering: C01."
  },
  {
   "property": "C89",
   "status": "partial",
   "theorems": [
    "Mmg.Subd.C89_regions",
    "Mmg.Subd.C89_outside",
    "Mmg.Subd.C89_nsd_partial",
    "Mmg.Subd.C89_nsd_links_observed"
   ],
   "note": "Regions and removal of the outside are proved in full. With the option nsd the set of triangles is proved, but the symmetry of the adjacency is false: C89_nsd_links_observed."
  },
  {
   "property": "C90",
   "status": "proved",
   "theorems": [
    "Mmg.GEdge.C90_table",
    "Mmg.GEdge.C90_user",
    "Mmg.GEdge.C90_infer",
    "Mmg.GEdge.C90_output",
    "Mmg.GEdge.C90_six_edges",
    "Mmg.GEdge.C90_duplicate_observed",
    "Mmg.GEdge.C90_one_sided_observed"
   ],
   "note": ""
  },
  {
   "property": "C91",
   "status": "proved",
   "theorems": [
    "Mmg.Del2.C91_cavity",
    "Mmg.Del2.C91_answers",
    "Mmg.Del2.C91_insert",
    "Mmg.Del2.C91_turn",
    "Mmg.Del2.C91_history",
    "Mmg.Del2.C91_nomem_observed"
   ],
   "note": ""
  },
  {
   "property": "C92",
   "status": "partial",
   "theorems": [
    "Mmg.SolIo.C92_all",
    "Mmg.SolIo.C92_one",
    "Mmg.SolIo.C92_binary_partial",
    "Mmg.SolIo.C92_binary_observed",
    "Mmg.SolIo.C92_binary_wrong_observed",
    "Mmg.SolIo.C92_binary_pos_observed",
    "Mmg.SolIo.C92_gmsh_observed",
    "Mmg.SolIo.C92_cells_observed",
    "Mmg.SolIo.C92_nokeyword_observed",
    "Mmg.SolIo.C92_name",
    "Mmg.SolIo.C92_name_observed",
    "Mmg.SolIo.C92_open_observed",
    "Mmg.SolIo.C92_stale_observed"
   ],
   "note": "ASCII files proved. Binary files: the code writes a line end after each vertex, so the values from the second vertex on are wrong; proved for the first vertex, the types, and all values if nothing were written there."
  },
  {
   "property": "C93",
   "status": "partial",
   "theorems": [
    "Mmg.Lag.C93_fraction",
    "Mmg.Lag.C93_largest",
    "Mmg.Lag.C93_largest_observed",
    "Mmg.Lag.C93_motion",
    "Mmg.Lag.C93_array",
    "Mmg.Lag.C93_array_observed",
    "Mmg.Lag.C93_middle",
    "Mmg.Lag.C93_volume",
    "Mmg.Lag.C93_marks_observed",
    "Mmg.Lag.C93_noroom_observed",
    "Mmg.Lag.C93_hull",
    "Mmg.Lag.C93_extend",
    "Mmg.Lag.C93_given",
    "Mmg.Lag.C93_sides",
    "Mmg.Lag.C93_nosource_observed"
   ],
   "note": "The statement on the motion is proved for remeshing and elasticity given as parameters that keep the quality and the given displacements. Observed: the list of invalid elements is written outside of its array when there are more of them than vertices; success is answered when this array cannot be allocated; in 2D a number that was never set is used when no side has the reference of the moving boundary."
  },
  {
   "property": "C94",
   "status": "partial",
   "theorems": [
    "Mmg.Surf.C94_split",
    "Mmg.Surf.C94_split_border",
    "Mmg.Surf.C94_split_failure_observed",
    "Mmg.Surf.C94_swap",
    "Mmg.Surf.C94_swap_refused",
    "Mmg.Surf.C94_swap_existing_edge_observed",
    "Mmg.Surf.C94_collapse",
    "Mmg.Surf.C94_two_triangles_test_observed",
    "Mmg.Surf.C94_split_all"
   ],
   "note": "Each operator proved; a split whose second slot is missing breaks the mesh and a swap onto an existing edge makes an edge of four triangles (proved). Collapse for ends whose triangles form one fan; that this is kept by the operators, and the tests of shape, are not treated."
  },
  {
   "property": "C95",
   "status": "proved",
   "theorems": [
    "Mmg.Req2.C95_required",
    "Mmg.Req2.C95_ready",
    "Mmg.Req2.C95_user",
    "Mmg.Req2.C95_ends_needed_observed",
    "Mmg.Req2.C95_both_sides_needed_observed"
   ],
   "note": "For the steps of the loops under their preconditions: a collapse has a ball as in C45, new slots are free, the neighbours after the pattern splitting are those of a conforming mesh. Insertion of vertices (mmg2d2), the packing (C83 and Pack2: with -nosurf it may drop the mark) and the metric are not part of it."
  },
  {
   "property": "C96",
   "status": "proved",
   "theorems": [
    "Mmg.NonBdy.C96_list",
    "Mmg.NonBdy.C96_number",
    "Mmg.NonBdy.C96_edges",
    "Mmg.NonBdy.C96_faces",
    "Mmg.NonBdy.C96_kind2",
    "Mmg.NonBdy.C96_kind3",
    "Mmg.NonBdy.C96_index_observed",
    "Mmg.NonBdy.C96_uncounted_observed",
    "Mmg.NonBdy.C96_twice_observed",
    "Mmg.NonBdy.C96_poly_observed",
    "Mmg.NonBdy.C96_lost_observed"
   ],
   "note": "Prisms, and the analysis made by the 3D function when the surface is not there, are left out. The documented refusal of other indices does not hold: C96_index_observed."
  },
  {
   "property": "C97",
   "status": "proved",
   "theorems": [
    "Mmg.ReqS.C97_required",
    "Mmg.ReqS.C97_ready",
    "Mmg.ReqS.C97_user",
    "Mmg.ReqS.C97_even",
    "Mmg.ReqS.C97_uneven_observed"
   ],
   "note": "Triangles of negative reference, which the pattern splitting leaves out, are not modelled. The premises on the mesh at a collapse and at a pattern split are stated in Step; C97_even gives the second on manifold meshes, C97_uneven_observed shows that it is needed."
  },
  {
   "property": "C98",
   "status": "partial",
   "theorems": [
    "Mmg.Arg.C98_reads",
    "Mmg.Arg.C98_parsar",
    "Mmg.Arg.C98_names",
    "Mmg.Arg.C98_safe",
    "Mmg.Arg.C98_refused",
    "Mmg.Arg.C98_argument",
    "Mmg.Arg.C98_unknown_observed",
    "Mmg.Arg.C98_verbose_observed",
    "Mmg.Arg.C98_missing_observed",
    "Mmg.Arg.C98_empty_observed",
    "Mmg.Arg.C98_prefix_observed"
   ],
   "note": "Reading of documented lines and names proved. Safe but for lines that end with -isoref or -in (C98_missing_observed). Most unknown options are accepted in silence (C98_unknown_observed); C98_refused tells which are refused. The option after a -v without number is lost (C98_verbose_observed)."
  },
  {
   "property": "C99",
   "status": "partial",
   "theorems": [
    "Mmg.ParFile.C99_list",
    "Mmg.ParFile.C99_reads",
    "Mmg.ParFile.C99_roundtrip",
    "Mmg.ParFile.C99_table",
    "Mmg.ParFile.C99_negative",
    "Mmg.ParFile.C99_many_observed",
    "Mmg.ParFile.C99_negative_observed",
    "Mmg.ParFile.C99_cut_observed",
    "Mmg.ParFile.C99_stale_observed",
    "Mmg.ParFile.C99_unset_observed",
    "Mmg.ParFile.C99_last_observed"
   ],
   "note": "Writing, reading and the round trip proved for at most 200 entries without negative reference. Beyond 200 entries or with a negative reference the written file is refused (C99_many_observed, C99_negative_observed). Files cut short are accepted with values of the line before, or values never read (C99_stale_observed, C99_cut_observed, C99_unset_observed)."
  },
  {
   "property": "C100",
   "status": "partial",
   "theorems": [
    "Mmg.ParS.C100_overflow",
    "Mmg.ParS.C100_values",
    "Mmg.ParS.C100_overflow_observed",
    "Mmg.ParS.C100_reads",
    "Mmg.ParS.C100_roundtrip",
    "Mmg.ParS.C100_file_safe",
    "Mmg.ParS.C100_short_observed",
    "Mmg.ParS.C100_word_observed",
    "Mmg.ParS.C100_line_observed"
   ],
   "note": "Calls write outside the table exactly if more distinct references are given than announced (C100_overflow), which the library does not refuse (C100_overflow_observed). Values, round trip and safety of files proved. Files with missing lines or a bad number are not refused (C100_short_observed, C100_word_observed)."
  },
  {
   "property": "C101",
   "status": "partial",
   "theorems": [
    "Mmg.LocPar.C101_regular",
    "Mmg.LocPar.C101_edge",
    "Mmg.LocPar.C101_order",
    "Mmg.LocPar.C101_cross_observed",
    "Mmg.LocPar.C101_swap_partial",
    "Mmg.LocPar.C101_swap_observed",
    "Mmg.LocPar.C101_plane_hausd",
    "Mmg.LocPar.C101_plane_partial",
    "Mmg.LocPar.C101_plane_observed",
    "Mmg.LocPar.C101_forget_observed",
    "Mmg.LocPar.C101_repair_observed"
   ],
   "note": "Proved for regular vertices and edges in 3D except that hmin may be above hmax (C101_cross_observed). Fails for swaps between triangles of equal reference (C101_swap_observed) and for entries on edges in the plane (C101_plane_observed, C101_forget_observed); crossing sizes are repaired once only (C101_repair_observed)."
  },
  {
   "property": "C102",
   "status": "partial",
   "theorems": [
    "Mmg.LenRep.C102_numbers",
    "Mmg.LenRep.C102_columns",
    "Mmg.LenRep.C102_columns_plane_partial",
    "Mmg.LenRep.C102_column_observed",
    "Mmg.LenRep.C102_once",
    "Mmg.LenRep.C102_total",
    "Mmg.LenRep.C102_surface_observed",
    "Mmg.LenRep.C102_plane_partial",
    "Mmg.LenRep.C102_plane_observed",
    "Mmg.LenRep.C102_mean_observed"
   ],
   "note": "3D: every edge once, except edges whose tetrahedra have only ordinary ridge vertices. Surfaces: every edge is counted once per triangle (C102_surface_observed). Plane: boundary edges are not counted (C102_plane_observed), the column of a length of 0.7071 is missing (C102_column_observed). The hash table is taken as a set here; that removals behave so is C103."
  },
  {
   "property": "C103",
   "status": "proved",
   "theorems": [
    "Mmg.Hash.C103_pop",
    "Mmg.Hash.C103_once"
   ],
   "note": "Removals, insertions and lookups in any order after any history of the calls of C01; a history stops early only at an insertion for which the allocator refuses to grow the table. Cells given back and taken again, and growth of the table, are covered."
  },
  {
   "property": "C104",
   "status": "partial",
   "theorems": [
    "Mmg.Mean.C104_weighted",
    "Mmg.Mean.C104_between",
    "Mmg.Mean.C104_uniform",
    "Mmg.Mean.C104_order",
    "Mmg.Mean.C104_mean_observed"
   ],
   "note": "Bounds, uniform case and order proved. The size is a mean in which each edge counts once per element that has it (C104_weighted), so it is not the mean over the edges (C104_mean_observed). Rounding and the truncation that follows are not part of it."
  },
  {
   "property": "C105",
   "status": "partial",
   "theorems": [
    "Mmg.Tri2.C105_neighbours",
    "Mmg.Tri2.C105_once",
    "Mmg.Tri2.C105_failure",
    "Mmg.Tri2.C105_joined_partial",
    "Mmg.Tri2.C105_touching_observed"
   ],
   "note": "Proved for the triangles joined to the given one by edges through the vertex, open or closed. Where two parts of the mesh touch at the vertex only, the neighbours in the other part are not listed (C105_touching_observed). The adjacency table must exist: unlike MMG2D_Get_adjaTri the function does not build it; the search of a first triangle (MMG2D_findTria) is not modelled."
  },
  {
   "property": "C106",
   "status": "partial",
   "theorems": [
    "Mmg.Bdry.C106_tet_partial",
    "Mmg.Bdry.C106_all_triangles",
    "Mmg.Bdry.C106_faces",
    "Mmg.Bdry.C106_both",
    "Mmg.Bdry.C106_prism_observed"
   ],
   "note": "Proved for meshes without prism, and for the triangles made from tetrahedra in any mesh. For a triangle made from a prism the link is 5k+i but is read as 4k+i, so a tetrahedron without this triangle is answered (C106_prism_observed)."
  },
  {
   "property": "C107",
   "status": "partial",
   "theorems": [
    "Mmg.Add.C107_vertex_partial",
    "Mmg.Add.C107_tet",
    "Mmg.Add.C107_history_partial",
    "Mmg.Add.C107_reference_observed",
    "Mmg.Add.C107_zero_observed"
   ],
   "note": "Proved for coordinates, tetrahedra, their references and the numbers answered, for all sequences of calls. The reference given for a vertex is lost: 0 is stored (C107_reference_observed). A tetrahedron with the vertex number 0 is not refused (C107_zero_observed)."
  },
  {
   "property": "C108",
   "status": "partial",
   "theorems": [
    "Mmg.LenRep.C108_quality",
    "Mmg.LenRep.C108_sound",
    "Mmg.LenRep.C108_covered_partial",
    "Mmg.LenRep.C108_first",
    "Mmg.LenRep.C108_check",
    "Mmg.LenRep.C108_all_observed",
    "Mmg.LenRep.C108_storage_observed"
   ],
   "note": "Exact for qualities. For lengths each tetrahedron listed has an edge out of bounds, and of the tetrahedra with such an edge the first is listed; but the other tetrahedra with this edge are not listed (C108_all_observed), and the length function of the other storage is called (C108_storage_observed), for scalar sizes one that reads tensors."
  },
  {
   "property": "C109",
   "status": "partial",
   "theorems": [
    "Mmg.Add.C109_sweep_partial",
    "Mmg.Add.C109_order_observed",
    "Mmg.Add.C109_check",
    "Mmg.Add.C109_refused_observed"
   ],
   "note": "Proved without additions. After additions every vertex is still read once, but the added ones first (C109_order_observed), and the check refuses the mesh because its counters are not at the last entities (C109_refused_observed)."
  }
 ]
}
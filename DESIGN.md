# Formal model of MmgTools/mmg: design

## Trusted base

* The Lean 4.33.0 kernel and the Mathlib modules imported (one by one) by the files under
  `lean/Verif`.
* Axioms: every theorem listed in `MANIFEST.json` depends on at most `propext`,
  `Classical.choice` and `Quot.sound` (the list per theorem is at the end of this file). There
  are no own axioms, no `sorry`, no `native_decide`, no `bv_decide`.
* The translation by hand from the C sources to the Lean definitions. Every definition cites the
  file and lines it models and states its simplifications. The tables of the tetrahedron split
  patterns (`Split3Model.lean`) were produced from the C text by a small script and then read
  against it; the script is not part of the trusted base in the sense that the tables are
  ordinary definitions one can compare with the code. `/repo` has not been compiled or run.

## General modelling conventions

* C arrays are lists or total functions from an index together with a capacity. Where memory
  safety is part of the claim, an access outside the allocation (or a violated assertion, or a
  null pointer) is the distinct outcome `none`; a theorem saying that the result is `some _` is
  then a memory safety statement.
* `MMG5_int` is an unbounded `Nat`/`Int`. Overflow is out of the model, except in C18 (memory
  counters of 64 bits wrap around).
* `double` is an exact number: an arbitrary linearly ordered field, or ℝ, or ℚ for witnesses.
  Rounding is out of the model. Numerical thresholds (`MMG5_EPSD` ...) are parameters or exact
  rationals.
* Numerical kernels that are not themselves the subject (edge length, eigenvalues, quality) are
  parameters with their specification as hypothesis.
* Prints, verbosity and debug output are dropped. Static variables are part of the state when
  they influence the result (C26, C32).
* Answers of the system allocator are arguments of the model where they matter (hash table growth,
  C02; pools, C08; memory, C18), otherwise allocation succeeds.
* When the code does not have the property, the negation is proved with a concrete witness, the
  strongest true part is proved under a name ending in `_partial` (or with the hypothesis visible in the statement),
  and the property is marked `partial`.

## Layout

* `lean/Verif/XModel.lean`: definitions citing the C code; `XLemmas.lean` and similar: helper
  lemmas; `XProps.lean`: specification and property theorems, each with an `example` that meets
  the hypotheses (for small areas all three are sections of one file).
* `properties.jsonl`: the properties; `MANIFEST.json`: status and theorem names;
  `seeded/LOG.jsonl`: record of the mutation experiments.


## Per property: model, proof, status

### C01 — The edge hash table is a finite map on unordered vertex pairs (proved)

* Code: `src/common/hash.c:MMG5_hashNew`, `src/common/hash.c:MMG5_hashEdge`, `src/common/hash.c:MMG5_hashUpdate`, `src/common/hash.c:MMG5_hashEdgeTag`, `src/common/hash.c:MMG5_hashGet`
* Model and proof: `HashModel.lean`: cell array with capacity, bucket heads, overflow chain; growth amount given by the environment. Refinement to a finite map on unordered pairs by an invariant (buckets are disjoint, acyclic, duplicate-free chains) over all operation lists.
* Theorems: `Mmg.Hash.C01_edge_table_is_map`, `Mmg.Hash.C01_edge_table_total`
* Limits and findings: Refinement to a map on unordered pairs over all operation histories.

### C02 — The edge hash table never touches memory outside its allocation and lookups terminate (proved)

* Code: `src/common/hash.c:MMG5_hashNew`, `src/common/hash.c:MMG5_hashEdge`, `src/common/hash.c:MMG5_hashEdgeTag`, `src/common/mmgcommon_private.h:MMG5_TAB_RECALLOC`
* Model and proof: same model; every array access is checked, the invariant shows that no history leads to an access outside the allocated cells.
* Theorems: `Mmg.Hash.C02_edge_table_memory_safe`, `Mmg.Hash.C02_hypothesis_needed`
* Limits and findings: Safety for hmax >= hsiz (as all callers do); the second theorem shows the hypothesis is needed.

### C03 — The face hash table identifies faces exactly by their vertex set (proved)

* Code: `src/common/hash.c:MMG5_hashFace`, `src/mmg3d/hash_3d.c:MMG5_hashGetFace`
* Model and proof: hashFace/hashGetFace on the same cell array; the key (min, max, sum) determines the set of three vertices.
* Theorems: `Mmg.Hash.C03_face_table_is_map`

### C04 — Tetrahedral adjacency is symmetric and joins elements that really share a face (proved)

* Code: `src/mmg3d/hash_3d.c:MMG3D_hashTetra`
* Model and proof: `AdjModel.lean`: both stages of the hashing (bucket links stored in the adjacency array itself, then matching). Generic theorem on the chained matching algorithm (links are partitioned into remaining chains and matched pairs), instantiated with the 4 faces of a tetrahedron.
* Theorems: `Mmg.Adj.C04_tetra_adjacency_symmetric`, `Mmg.Adj.C04_no_self_adjacency`, `Mmg.Adj.C04_packing_needed`
* Limits and findings: For packed element arrays (what the caller guarantees); the last theorem shows packing is needed.

### C05 — Tetrahedral adjacency misses no shared face (proved)

* Code: `src/mmg3d/hash_3d.c:MMG3D_hashTetra`
* Model and proof: same run; the value returned and the warning are related to the multiset of faces.
* Theorems: `Mmg.Adj.C05_tetra_adjacency_complete`

### C06 — 2D triangle adjacency is symmetric, geometrically right, and complete (proved)

* Code: `src/mmg2d/hash_2d.c:MMG2D_hashTria`
* Model and proof: same generic algorithm with 3 edges and unused triangles.
* Theorems: `Mmg.Adj.C06_tria_adjacency`, `Mmg.Adj.C06_tria_boundary_iff`
* Limits and findings: Unused triangles allowed.

### C07 — Surface adjacency marks exactly the multiply shared edges as non-manifold (partial)

* Code: `src/common/hash.c:MMG5_mmgHashTria`
* Model and proof: `HashTriaModel.lean`: the three passes with the edge table (growth included). Loop invariant on the table: for each edge the list of the sides seen so far determines link, tags and table entry.
* Theorems: `Mmg.HTri.C07_surface_adjacency`, `Mmg.HTri.C07_duplicate_marks_regular_edge`, `Mmg.HTri.C07_duplicate_takes_link`, `Mmg.HTri.C07_duplicate_kept`
* Limits and findings: The full claim is proved for every triangulation without repeated triangles (all three passes, edge table with growth, implicit-surface rule, purely parallel sides). The last sentence (a repeated triangle has no effect) is false; three witnesses are proved: a regular edge marked non-manifold, a link to a discarded triangle, a repeated triangle that is not discarded.

### C08 — Point slots are allocated at most once (3D) (proved)

* Code: `src/mmg3d/zaldy_3d.c:MMG3D_newPt`, `src/mmg3d/zaldy_3d.c:MMG3D_delPt`, `src/mmg3d/zaldy_3d.c:MMG3D_setMeshSize_alloc`
* Model and proof: `PoolModel.lean`: chain of free slots stored in the slots; invariant: the chain is a duplicate-free list, disjoint from the used slots, all together covering the array; induction over histories with growth.
* Theorems: `Mmg.Pool.C08_point_slots`, `Mmg.Pool.C08_count_is_highest_used`, `Mmg.Pool.C08_double_delete_corrupts`, `Mmg.Pool.C08_full_allocation_overflows`, `Mmg.Pool.C08_failed_boundary_creation_leaks`
* Limits and findings: Histories with growth. The last three theorems are counterexamples: unchecked double deletion, out-of-bounds first creation when npmax=np, lost slot when the xpoint table cannot grow.

### C09 — Element slots are allocated at most once (3D and 2D) (proved)

* Code: `src/mmg3d/zaldy_3d.c:MMG3D_newElt`, `src/mmg3d/zaldy_3d.c:MMG3D_delElt`, `src/mmg2d/zaldy_2d.c:MMG2D_newElt`, `src/mmg2d/zaldy_2d.c:MMG2D_delElt`
* Model and proof: same invariant for elements.
* Theorems: `Mmg.Pool.C09_element_slots`
* Limits and findings: 3D and 2D share the code shape (link field v[3] / v[2]).

### C10 — Packing tetrahedra loses and duplicates nothing (proved)

* Code: `src/mmg3d/hash_3d.c:MMG5_paktet`
* Model and proof: `PakProps.lean`: the compaction loop; the kept elements are a permutation of the valid ones.
* Theorems: `Mmg.Pool.C10_pack_keeps_elements`, `Mmg.Pool.C10_reachable_pools_can_be_packed`

### C11 — Final 3D packing is a consistent renumbering (proved)

* Code: `src/mmg3d/libmmg3d.c:MMG3D_mark_packedPoints`, `src/mmg3d/libmmg3d.c:MMG3D_pack_sol`, `src/mmg3d/libmmg3d.c:MMG3D_pack_pointArray`, `src/mmg3d/libmmg3d.c:MMG3D_update_eltsVertices`, `src/mmg3d/libmmg3d.c:MMG3D_pack_tetraAndAdja`
* Model and proof: `Pack3Model.lean`: every packing loop (points, solutions, tetrahedra with adjacency, prisms, quadrilaterals, ...) in order; loop invariants, then comparison of the renumbering maps.
* Theorems: `Mmg.Pack3.C11_pack_consistent`, `Mmg.Pack3.C11_no_used_point`, `Mmg.Pack3.C11_unused_prism_counted`
* Limits and findings: Variant without Scotch. Hypotheses (Ready): at least one used point, valid elements refer to used points, symmetric adjacency, distinct solution arrays. A mesh without used point makes the code read before the array (C11_no_used_point); an unused prism may stay counted (C11_unused_prism_counted), valid ones are kept exactly once.

### C12 — Final 2D packing is an order-preserving renumbering (proved)

* Code: `src/mmg2d/hash_2d.c:MMG2D_pack`
* Model and proof: `Pack2Model.lean`: same for 2D, with the edge list.
* Theorems: `Mmg.Pack2.C12_pack_consistent`, `Mmg.Pack2.C12_second_count_stale`
* Limits and findings: Given symmetric adjacency and valid elements on used points. Finding: the number of values of the solution given as third argument is not updated (C12_second_count_stale).

### C13 — 2D edge splitting keeps a conforming triangulation (proved)

* Code: `src/mmg2d/split_2d.c:MMG2D_split1b`
* Model and proof: `Tri2Model.lean`: triangle arrays with adjacency, tags, references; half-edge specification; case analysis on the neighbours.
* Theorems: `Mmg.Tri2.C13_split_interior_edge`, `Mmg.Tri2.C13_split_boundary_edge`
* Limits and findings: Slots come from the pool of C09; the new vertex is not already a vertex of the split triangles.

### C14 — 2D edge swapping keeps a conforming triangulation (proved)

* Code: `src/mmg2d/swapar_2d.c:MMG2D_swapar`
* Model and proof: same model, edge swap.
* Theorems: `Mmg.Tri2.C14_swap`
* Limits and findings: The two apexes must differ (guaranteed by the quality test done before).

### C15 — Splitting a 2D triangle at an interior point keeps a conforming triangulation (partial)

* Code: `src/mmg2d/split_2d.c:MMG2D_splitbar`
* Model and proof: same model, barycentric split, signed areas over an ordered field.
* Theorems: `Mmg.Tri2.C15_split_triangle_partial`, `Mmg.Tri2.C15_tags_misplaced`
* Limits and findings: Triangles, links and areas proved; the tag part is false for tagged triangles (counterexample proved): the code clears the outer edges and keeps tags on inner ones.

### C16 — 2D refinement and swapping histories preserve mesh validity (proved)

* Code: `src/mmg2d/split_2d.c:MMG2D_split1b`, `src/mmg2d/swapar_2d.c:MMG2D_swapar`, `src/mmg2d/split_2d.c:MMG2D_splitbar`, `src/mmg2d/zaldy_2d.c:MMG2D_newElt`
* Model and proof: same model; induction over arbitrary lists of splits and swaps with the invariant of C13/C14.
* Theorems: `Mmg.Tri2.C16_histories`, `Mmg.Tri2.C16_area_conserved`, `Mmg.Tri2.C16_circulation_is_boundary`, `Mmg.Tri2.C16_histories_with_collapse`, `Mmg.Tri2.C16_area_with_collapse`

### C17 — The ball of a surface vertex is enumerated exactly once (proved)

* Code: `src/common/boulep.c:MMG5_boulet`, `src/mmg2d/boulep_2d.c:MMG2D_boulep`
* Model and proof: `BallModel.lean`: ball walk with list capacity; walk invariants by induction on the steps.
* Theorems: `Mmg.Tri2.C17_ball`, `Mmg.Tri2.C17_ball_failure`
* Limits and findings: MMG5_boulet; the list capacity is a parameter.

### C18 — Memory accounting never exceeds the authorised maximum and never underflows (proved)

* Code: `src/common/mmgcommon_private.h:MMG5_CHK_MEM`, `src/common/mmgcommon_private.h:MMG5_ADD_MEM`, `src/common/mmgcommon_private.h:MMG5_DEL_MEM`, `src/common/mmgcommon_private.h:MMG5_TAB_RECALLOC`
* Model and proof: `MemProps.lean`: memory macros on a 64-bit counter; balance invariant over histories.
* Theorems: `Mmg.Mem.C18_memory_accounting`, `Mmg.Mem.C18_refusal_drifts`, `Mmg.Mem.C18_wraparound`
* Limits and findings: Balance over all histories without refusal by the system; the two other theorems are counterexamples (counter drifts after a refused growth, wraparound accepted).

### C19 — The point-region octree stores exactly the inserted points (proved)

* Code: `src/mmg3d/PRoctree_3d.c:MMG3D_addPROctreeRec`, `src/mmg3d/PRoctree_3d.c:MMG3D_delPROctreeRec`, `src/mmg3d/PRoctree_3d.c:MMG3D_mergeBranchesRec`
* Model and proof: `OctModel.lean`: the octree as an inductive tree with the allocated size of each vertex array; insertion with subdivision, deletion with merging. Invariant `WF` (depth, counter, capacity, sub-cell of each vertex) preserved by both; the power-of-2 arithmetic of the reallocation policy is proved.
* Theorems: `Mmg.Oct.C19_octree_history`
* Limits and findings: Exact coordinates; allocations succeed. Every pointer access, array write and assertion is modelled as a possible failure and proved not to fail.

### C20 — Octree neighbourhood search returns every stored vertex of the zone (partial)

* Code: `src/mmg3d/PRoctree_3d.c:MMG3D_getListSquareRec`, `src/mmg3d/PRoctree_3d.c:MMG3D_intersectRect`, `src/mmg3d/PRoctree_3d.c:MMG3D_PROctreein_iso`
* Model and proof: zone search on the same trees, by induction on the tree: the list only grows, and covers every vertex of the box when no branch gave up; search in general position never gives up.
* Theorems: `Mmg.Oct.C20_search_complete_partial`, `Mmg.Oct.C20_search_generic`, `Mmg.Oct.C20_filter_partial`, `Mmg.Oct.C20_filter_generic`, `Mmg.Oct.C20_filter_midplane`, `Mmg.Oct.C20_filter_overfull`, `Mmg.Oct.C20_filter_off_midplane`
* Limits and findings: Proved when the search reports some cell, and unconditionally for boxes whose lower corner has no dyadic coordinate in trees with at most nc-4 cells. False in general: the search gives up when the lower face of the box lies on a mid-plane (C20_filter_midplane) or when too many cells meet the box (C20_filter_overfull), and the filter then accepts any point.

### C21 — The multi-material inverse map inverts the user's table (proved)

* Code: `src/common/mmg2.c:MMG5_MultiMat_init`, `src/common/mmg2.c:MMG5_InvMat_set`, `src/common/mmg2.c:MMG5_getStartRef`
* Model and proof: `MatModel.lean`: look-up table and its filling loop; invariant of the loop.
* Theorems: `Mmg.Mat.C21_inverse_map`, `Mmg.Mat.C21_set_material`, `Mmg.Mat.C21_later_reference_out_of_bounds`, `Mmg.Mat.C21_replaced_attribute_unchecked`, `Mmg.Mat.C21_full_table_frozen`
* Limits and findings: For references seen when the table is built. Findings proved: a reference that enters the mesh later is looked up out of bounds; replacing a row does not check the split attribute and can corrupt the map.

### C22 — Split/no-split decisions follow the user's table (partial)

* Code: `src/common/mmg2.c:MMG5_isSplit`, `src/common/mmg2.c:MMG5_isNotSplit`, `src/common/mmg2.c:MMG5_isLevelSet`
* Model and proof: decision functions on the same table.
* Theorems: `Mmg.Mat.C22_is_split`, `Mmg.Mat.C22_is_level_set`, `Mmg.Mat.C22_is_not_split_inverted_partial`, `Mmg.Mat.C22_is_not_split_false`
* Limits and findings: The split and level-set parts are proved. The not-to-be-split query answers the opposite of the claim (proved, with counterexample).

### C23 — Vertex API round trip (proved)

* Code: `src/mmg3d/API_functions_3d.c:MMG3D_Set_vertex`, `src/mmg3d/API_functions_3d.c:MMG3D_Get_vertex`, `src/mmg3d/API_functions_3d.c:MMG3D_GetByIdx_vertex`, `src/mmg3d/API_functions_3d.c:MMG3D_Set_vertices`, `src/mmg3d/API_functions_3d.c:MMG3D_Get_vertices`, `src/mmg3d/API_functions_3d.c:MMG3D_Set_corner`
* Model and proof: `ApiModel.lean`: 32 setters/getters of the 3D API as state transformers; frame and round-trip lemmas; invariants over all call sequences.
* Theorems: `Mmg.Api.C23_vertex_round_trip`, `Mmg.Api.C23_histories_run`, `Mmg.Api.C23_out_of_range`, `Mmg.Api.C23_position_zero_accepted`, `Mmg.Api.C23_beyond_size_refused`
* Limits and findings: Any history of the 32 modelled calls. Position 0 is accepted and negative positions are undefined behaviour (proved).

### C24 — Tetrahedron API round trip with orientation repair (proved)

* Code: `src/mmg3d/API_functions_3d.c:MMG3D_Set_tetrahedron`, `src/mmg3d/API_functions_3d.c:MMG3D_Get_tetrahedron`, `src/common/tools.c:MMG5_orvol`
* Model and proof: orientation test of the tetrahedron setter over an ordered ring.
* Theorems: `Mmg.Api.C24_set_tetrahedron`, `Mmg.Api.C24_set_tetrahedra`, `Mmg.Api.C24_set_tetrahedra_refused`, `Mmg.Api.C24_positive_kept`, `Mmg.Api.C24_vertices_used`, `Mmg.Api.C24_get_tetrahedra`
* Limits and findings: Exact arithmetic over any ordered ring, threshold a parameter. Null elements are refused but stay stored (proved); the block call counts in another counter than the single call (proved).

### C25 — Prism, quadrilateral, triangle and edge API round trips (partial)

* Code: `src/mmg3d/API_functions_3d.c:MMG3D_Set_prism`, `src/mmg3d/API_functions_3d.c:MMG3D_Get_prisms`, `src/mmg3d/API_functions_3d.c:MMG3D_Set_quadrilateral`, `src/mmg3d/API_functions_3d.c:MMG3D_Set_triangles`, `src/mmg3d/API_functions_3d.c:MMG3D_Get_edges`
* Model and proof: block setters/getters as loops; round trips.
* Theorems: `Mmg.Api.C25_triangle_round_trip`, `Mmg.Api.C25_quadrilateral_round_trip`, `Mmg.Api.C25_edge_round_trip`, `Mmg.Api.C25_prism_round_trip_partial`, `Mmg.Api.C25_prism_round_trip_false`
* Limits and findings: Triangles, quadrilaterals, edges proved over all histories. For prisms the block getter exchanges vertices 1 and 2: counterexample proved and the partial theorem says exactly what is returned.

### C26 — Sequential getters enumerate every entity exactly once per sweep (partial)

* Code: `src/mmg3d/API_functions_3d.c:MMG3D_Get_vertex`, `src/mmg3d/API_functions_3d.c:MMG3D_Get_prism`, `src/mmg3d/API_functions_3d.c:MMG3D_Get_quadrilateral`, `src/mmg3d/API_functions_3d.c:MMG3D_Get_edge`
* Model and proof: cursors of the getters (per mesh and static) as part of the state; all interleavings.
* Theorems: `Mmg.Cursor.C26_sweeps`, `Mmg.Cursor.C26_static_sweeps_partial`, `Mmg.Cursor.C26_prisms_interleaved_false`, `Mmg.Cursor.C26_prisms_stuck_false`, `Mmg.Cursor.C26_prisms_resized_false`, `Mmg.Cursor.C23_sequential`
* Limits and findings: Proved for vertices, tetrahedra, triangles, edges over all interleavings. Prisms and quadrilaterals use static cursors shared by all meshes: three counterexamples and a partial theorem for one mesh.

### C27 — Solution API round trip (proved)

* Code: `src/mmg3d/API_functions_3d.c:MMG3D_Set_scalarSol`, `src/mmg3d/API_functions_3d.c:MMG3D_Set_vectorSol`, `src/mmg3d/API_functions_3d.c:MMG3D_Set_tensorSol`, `src/mmg3d/API_functions_3d.c:MMG3D_Set_ithSol_inSolsAtVertices`
* Model and proof: `SolProps.lean`: solution setters/getters; refinement to an array over histories.
* Theorems: `Mmg.Sol.C27_round_trip`, `Mmg.Sol.C27_setting`, `Mmg.Sol.C27_histories_run`, `Mmg.Sol.C27_last_position_refused`, `Mmg.Sol.C27_set_ith_ignores_refusal`, `Mmg.Sol.C27_get_ith_wraps`
* Limits and findings: All histories of single, block and indexed calls. Findings proved: last position refused when the array is full, refusals ignored for vectors and tensors, index np+1 wraps to entry 1.

### C28 — Local parameters: last value wins (proved)

* Code: `src/mmg3d/API_functions_3d.c:MMG3D_Set_localParameter`
* Model and proof: `ParProps.lean`: local parameters; refinement to a finite map.
* Theorems: `Mmg.Par.C28_last_value_wins`, `Mmg.Par.C28_acceptance`, `Mmg.Par.C28_full_table_frozen`
* Limits and findings: Refinement to a finite map over all histories, including new announcements of the number. A full table refuses new values even for existing pairs (proved).

### C29 — Required/corner/ridge flags are independent bits (proved)

* Code: `src/mmg3d/API_functions_3d.c:MMG3D_Set_corner`, `src/mmg3d/API_functions_3d.c:MMG3D_Unset_corner`, `src/mmg3d/API_functions_3d.c:MMG3D_Set_requiredTriangle`, `src/mmg3d/API_functions_3d.c:MMG3D_Unset_requiredTriangle`, `src/mmg3d/API_functions_3d.c:MMG3D_Set_parallelTriangle`
* Model and proof: flags as bits of the tag word; invariants over call sequences.
* Theorems: `Mmg.Api.C29_vertex_flags`, `Mmg.Api.C29_triangle_flags`, `Mmg.Api.C29_edge_flags`, `Mmg.Api.C29_tetrahedron_flags`
* Limits and findings: Any initial tags, any history of the 32 modelled calls; rewriting a vertex clears its flags.

### C30 — Removing the isosurface at load keeps every other triangle and edge (partial)

* Code: `src/mmg3d/API_functions_3d.c:MMG3D_skipIso`
* Model and proof: `IsoProps.lean`: the in-place removal loops; exact result of the code and comparison with a list filter.
* Theorems: `Mmg.Iso.C30_triangles_partial`, `Mmg.Iso.C30_triangles_kept_partial`, `Mmg.Iso.C30_triangles_last_partial`, `Mmg.Iso.C30_edges_partial`, `Mmg.Iso.C30_false`, `Mmg.Iso.C30_edges_false`, `Mmg.Iso.lastKept_exists`
* Limits and findings: False: the last kept entity is duplicated in the place of every removed one before it (counterexamples). The exact result of the code is proved; the full claim is proved when the isosurface entities come last.

### C31 — Scaling then unscaling restores the problem (proved)

* Code: `src/common/scalem.c:MMG5_boundingBox`, `src/common/scalem.c:MMG5_scale_meshAndSol`, `src/common/scalem.c:MMG5_unscaleMesh`
* Model and proof: `ScaleModel.lean`: bounding box, scaling and unscaling over an ordered field.
* Theorems: `Mmg.Scale.C31_unit_box`, `Mmg.Scale.C31_restored`, `Mmg.Scale.C31_scalar_metric`, `Mmg.Scale.C31_unscale_twice`, `Mmg.Scale.C31_unused_not_restored`, `Mmg.Scale.C31_failure_leaves_scaled`, `Mmg.Scale.truncAni3_frame`
* Limits and findings: Exact arithmetic. Tensor truncation is a parameter with a frame hypothesis, met by the modelled 3D truncation (truncAni3_frame). Findings: values at unused vertices are scaled but not restored; a failed scaling leaves the mesh scaled.

### C32 — Invalid metrics are always rejected (partial)

* Code: `src/common/scalem.c:MMG5_scale_scalarMetric`
* Model and proof: same file, validity tests with the static flag in the state.
* Theorems: `Mmg.Scale.C32_rejected_partial`, `Mmg.Scale.C32_valid_accepted`, `Mmg.Scale.C32_never_again`, `Mmg.Scale.C32_second_accepted_false`
* Limits and findings: False in general: a static flag makes the routine reject an invalid metric only the first time in a process (C32_second_accepted_false). Proved for the first invalid metric of the process.

### C33 — Sizes are truncated inside [hmin,hmax] (partial)

* Code: `src/common/scalem.c:MMG5_solTruncature_iso`, `src/common/scalem.c:MMG5_check_hminhmax`
* Model and proof: same file, truncation.
* Theorems: `Mmg.Scale.C33_truncated_partial`, `Mmg.Scale.C33_contradictory_false`
* Limits and findings: Proved unless the user gives hmin > hmax: this is accepted silently and sizes end below hmin (C33_contradictory_false).

### C34 — Default and constant size bounds are ordered (proved)

* Code: `src/common/API_functions.c:MMG5_Set_defaultTruncatureSizes`, `src/common/API_functions.c:MMG5_Compute_constantSize`, `src/common/API_functions.c:MMG5_Set_constantSize`
* Model and proof: same file, default bounds.
* Theorems: `Mmg.Scale.C34_default_bounds`, `Mmg.Scale.C34_constant_size`, `Mmg.Scale.C34_zero_bound`
* Limits and findings: A user-given hmax of zero yields hmin = 0 (C34_zero_bound), hence the positivity in the quantifier.

### C35 — Isotropic gradation only reduces sizes and enforces the gradation bound at convergence (proved)

* Code: `src/common/isosiz.c:MMG5_gradsiz_iso`
* Model and proof: `GradProps.lean`: gradation loop with flags as a fold over edges; worklist invariant (every edge whose ends were not touched in the last pass is graded).
* Theorems: `Mmg.Grad.C35_edges`, `Mmg.Grad.C35_triangles`, `Mmg.Grad.C35_tetrahedra`
* Limits and findings: Edge length is a parameter (symmetric, non-negative).

### C36 — Small linear algebra kernels return exact inverses (partial)

* Code: `src/common/tools.c:MMG5_invmat`, `src/common/tools.c:MMG5_invmatg`, `src/common/tools.c:MMG5_invmat33`, `src/common/tools.c:MMG5_invmat22`, `src/common/tools.c:MMG5_sys33sym`, `src/common/tools.c:MMG5_rmtr`, `src/common/tools.c:MMG5_mn`
* Model and proof: `LinAlg.lean`: matrix kernels over a field; ring identities.
* Theorems: `Mmg.LinAlg.C36_inverse_2x2`, `Mmg.LinAlg.C36_inverse_3x3_general`, `Mmg.LinAlg.C36_inverse_3x3_2d`, `Mmg.LinAlg.C36_inverse_3x3_sym_partial`, `Mmg.LinAlg.C36_inverse_3x3_sym_false`, `Mmg.LinAlg.C36_inverse_3x3_sym_inf`, `Mmg.LinAlg.C36_solver`, `Mmg.LinAlg.C36_congruence`, `Mmg.LinAlg.C36_product`
* Limits and findings: Exact arithmetic. The symmetric inversion drops off-diagonal entries below 1e-6, so the full claim is false (counterexamples proved); it holds outside that shortcut.

### C37 — Index sort returns a sorting permutation (proved)

* Code: `src/common/tools.c:MMG5_nsort`, `src/common/tools.c:MMG5_nperm`
* Model and proof: `SortProps.lean`: insertion-type sort with permutation array; sorting invariant.
* Theorems: `Mmg.Sort.C37_sort`, `Mmg.Sort.C37_permute`, `Mmg.Sort.C37_sort_and_permute`

### C38 — File name extension handling (partial)

* Code: `src/common/API_functions.c:MMG5_Get_filenameExt`, `src/common/API_functions.c:MMG5_Remove_ext`, `src/common/API_functions.c:MMG5_Get_format`
* Model and proof: `NameProps.lean`: strings as character lists; searches from the left/right.
* Theorems: `Mmg.Name.C38_extension`, `Mmg.Name.C38_hidden_file_false`, `Mmg.Name.C38_remove_partial`, `Mmg.Name.C38_remove_default_partial`, `Mmg.Name.C38_remove_false`, `Mmg.Name.C38_path`, `Mmg.Name.C38_format`, `Mmg.Name.C38_format_of_name`
* Limits and findings: Extension finder characterised for every string: proved, except that 'dir/.name' is given the extension '.name' (C38_hidden_file_false) and '.o' is never an extension. Removal uses the first occurrence instead of the last: refuted in general, proved when the extension does not occur earlier in the path.

### C39 — Keeping one sub-domain keeps exactly its elements (proved)

* Code: `src/common/tools.c:MMG5_keep_subdomainElts`
* Model and proof: `SubProps.lean`: loops on elements with reciprocal links; loop invariant.
* Theorems: `Mmg.Sub.C39_kept_elements`, `Mmg.Sub.C39_no_choice`
* Limits and findings: For triangles and tetrahedra (n vertices and n faces), any mesh with reciprocal links, with or without adjacency table.

### C40 — Unused vertices are exactly those used by no kept entity (proved)

* Code: `src/common/tools.c:MMG5_mark_verticesAsUnused`, `src/common/tools.c:MMG5_mark_usedVertices`
* Model and proof: same file, points used/unused.
* Theorems: `Mmg.Sub.C40_valid_vertices`
* Limits and findings: The isolated required vertices that were already invalid with a stale flag are not restored (in the statement).

### C41 — Edge split of a tetrahedron conserves volume and conformity (proved)

* Code: `src/mmg3d/split_3d.c:MMG3D_split1_cfg`, `src/mmg3d/split_3d.c:MMG5_split1`
* Model and proof: `Split3*.lean`: one-edge split; volume as a determinant over a field.
* Theorems: `Mmg.Split3.split1_halves`, `Mmg.Split3.half_volumes`, `Mmg.Split3.halves_share_one_face`, `Mmg.Split3.split1_two_halves`

### C42 — Prism adjacency (proved)

* Code: `src/mmg3d/hash_3d.c:MMG3D_hashPrism`
* Model and proof: `AdjModel.lean`: prisms with two triangular and three quadrilateral faces in the same buckets.
* Theorems: `Mmg.Adj.C42_prism_adjacency_conforming`, `Mmg.Adj.C42_prism_adjacency_partial`, `Mmg.Adj.C42_prism_confusion`
* Limits and findings: Symmetry for all meshes, exact faces for conforming meshes; C42_prism_confusion is a counterexample for non-conforming ones.

### C43 — Rotation onto the vertical axis is a rotation (proved)

* Code: `src/common/tools.c:MMG5_rotmatrix`
* Model and proof: `LinAlg.lean`: the rotation built from the normal; matrix identities over ℝ.
* Theorems: `Mmg.LinAlg.C43_rotation`
* Limits and findings: Real arithmetic.

### C44 — Neighbour vertices of a surface vertex are enumerated completely (partial)

* Code: `src/common/boulep.c:MMG5_boulep`
* Model and proof: `BallModel.lean`: ball of a surface vertex, closed and open fans.
* Theorems: `Mmg.Tri2.C44_neighbours_partial`, `Mmg.Tri2.C44_open_fan_false`
* Limits and findings: Closed fans proved. For open fans the statement is false: the reverse loop crosses the edge opposite to the vertex (counterexample proved).

### C45 — 2D edge collapse keeps a conforming mesh (partial)

* Code: `src/mmg2d/colver_2d.c:MMG2D_colver`, `src/mmg2d/colver_2d.c:MMG2D_colver3`, `src/mmg2d/colver_2d.c:MMG2D_colver2`
* Model and proof: `Tri2ColModel.lean`: the three collapse operators with adjacency and tags.
* Theorems: `Mmg.Tri2.C45_collapse_interior`, `Mmg.Tri2.C45_collapse_boundary`, `Mmg.Tri2.C45_collapse3`, `Mmg.Tri2.C45_collapse2_partial`, `Mmg.Tri2.C45_two_triangles_tag_false`
* Limits and findings: Full claim for MMG2D_colver and MMG2D_colver3. For a boundary vertex with two triangles the equality of the tags on both sides needs an untagged inner edge (counterexample proved without it).

### C46 — Splitting a tetrahedron keeps boundary attributes (partial)

* Code: `src/mmg3d/split_3d.c:MMG5_split1`, `src/mmg3d/split_3d.c:MMG5_split2`, `src/mmg3d/split_3d.c:MMG5_split2sf`, `src/mmg3d/split_3d.c:MMG5_split3`, `src/mmg3d/split_3d.c:MMG5_split3cone`, `src/mmg3d/split_3d.c:MMG5_split3op`, `src/mmg3d/split_3d.c:MMG5_split4sf`, `src/mmg3d/split_3d.c:MMG5_split4op`, `src/mmg3d/split_3d.c:MMG5_split5`, `src/mmg3d/split_3d.c:MMG5_split6`
* Model and proof: `Split3Model.lean`: all split patterns (1 to 6 points) with vertices, edge tags and references, face tags and references and orientation flags; permutations of each pattern enumerated, statement for all input values.
* Theorems: `Mmg.Split3.split_total`, `Mmg.Split3.split_inherits_partial`, `Mmg.Split3.split6_tags_partial`, `Mmg.Split3.split3op_ori_wrong`, `Mmg.Split3.split6_tags_wrong`
* Limits and findings: Proved for every pattern except two defects of the code, each refuted with a witness: one branch of the three-opposite-edges split loses the orientation flag of a boundary face, and the six-edge split reads an uninitialised tag for one edge and the wrong face tag for another.

### C47 — Splitting a tetrahedron conserves volume and orientation (proved)

* Code: `src/mmg3d/split_3d.c:MMG5_split1`, `src/mmg3d/split_3d.c:MMG5_split6`, `src/mmg3d/mmg3d1.c:MMG5_anatet`
* Model and proof: determinant identities for the children of each pattern over an ordered field.
* Theorems: `Mmg.Split3.split_volume_sum`, `Mmg.Split3.split_volume_nonneg`, `Mmg.Split3.split_volume_pos`
* Limits and findings: Exact arithmetic over any ordered field.

### C48 — Pattern splitting of a whole mesh is conforming (proved)

* Code: `src/mmg3d/mmg3d1.c:MMG5_anatet`, `src/mmg3d/mmg3d1.c:MMG3D_splsurfedge`, `src/mmg3d/split_3d.c`
* Model and proof: faces of the children of each pattern; generic argument on the whole mesh: faces cancel in pairs before and after.
* Theorems: `Mmg.Split3.split_faces`, `Mmg.Split3.splitOne_faces`, `Mmg.Split3.splitAll_conforming`, `Mmg.Split3.splitAll_volume`, `Mmg.Split3.splitAll_skips_one_side`
* Limits and findings: Under the hypothesis that no tetrahedron ignores a point of its edges; splitAll_skips_one_side shows that the code can ignore one (required edge, one side without boundary record) and the mesh is then not conforming.

### C49 — Search of a valid position for split points (proved)

* Code: `src/mmg3d/mmg3d1.c:MMG3D_dichoto`, `src/mmg3d/split_3d.c:MMG3D_split1_sim`
* Model and proof: simulation functions and the bisection on the position of the new points; volumes as affine functions.
* Theorems: `Mmg.Split3.sim_iff`, `Mmg.Split3.dichoto_valid`, `Mmg.Split3.dichoto_moves`, `Mmg.Split3.dichoto_succeeds`
* Limits and findings: Exact arithmetic.

### C50 — Star split of a tetrahedron at its barycentre (proved)

* Code: `src/mmg3d/split_3d.c:MMG5_split4bar`
* Model and proof: star of a point inside a tetrahedron (MMG5_split4bar) with adjacency.
* Theorems: `Mmg.Split3.star_adjacency`, `Mmg.Split3.star_inherits`, `Mmg.Split3.star_volume`, `Mmg.Split3.star_faces`

### C52 — Tensor sizes are truncated inside [hmin,hmax] (proved)

* Code: `src/common/scalem.c:MMG5_3dSolTruncature_ani`
* Model and proof: `ScaleAni.lean`: tensor truncation with a diagonalisation given by its specification.
* Theorems: `Mmg.Scale.C52_truncated`, `Mmg.Scale.C52_size_two_false`, `Mmg.Scale.truncAni3_frame`
* Limits and findings: The diagonalisation is a parameter with its specification. With automatic bounds a metric of uniform size two (in units of the mesh extent) is replaced by a tiny size: C52_size_two_false.

### C53 — Gradation from required vertices (proved)

* Code: `src/common/isosiz.c:MMG5_gradsizreq_iso`, `src/mmg3d/isosiz_3d.c:MMG3D_gradsizreq_iso`
* Model and proof: `GradProps.lean`: propagation from required edges.
* Theorems: `Mmg.Grad.C53_required`, `Mmg.Grad.C53_vertical_edge_false`
* Limits and findings: The length is the one used by the code; for surface meshes it ignores the third coordinate (C53_vertical_edge_false).

### C54 — Normals after the final 3D packing (partial)

* Code: `src/mmg3d/libmmg3d.c:MMG3D_pack_pointArray`
* Model and proof: `Pack3Extra.lean`: loop moving the points, normals.
* Theorems: `Mmg.Pack3.C54_normals_partial`, `Mmg.Pack3.C54_last_normal_missing`
* Limits and findings: False for the vertex that keeps the last number (C54_last_normal_missing); proved for all others.

### C55 — Free points after the final 3D packing (partial)

* Code: `src/mmg3d/libmmg3d.c:MMG3D_pack_pointArray`, `src/mmg3d/zaldy_3d.c:MMG3D_newPt`
* Model and proof: `Pack3Extra.lean`: chain of free points after packing, with the pool model of C08.
* Theorems: `Mmg.Pack3.C55_free_list_partial`, `Mmg.Pack3.C55_free_list_false`
* Limits and findings: False if the last slot was used and deleted before: a stale link then leads to a used point (C55_free_list_false). Proved if the last slot was never used.

### C56 — Edges of the output 2D mesh and their triangles (partial)

* Code: `src/mmg2d/hash_2d.c:MMG2D_pack`, `src/mmg2d/libmmg2d_tools.c:MMG2D_Get_triFromEdge`, `src/mmg2d/libmmg2d_tools.c:MMG2D_Get_trisFromEdge`
* Model and proof: `Pack2Edges.lean`, `Pack2Props.lean`: counting pass and filling pass; edge lookup.
* Theorems: `Mmg.Pack2.C56_edge_table`, `Mmg.Pack2.C56_once_partial`, `Mmg.Pack2.C56_required_twice`, `Mmg.Pack2.C56_first_triangle_twice`, `Mmg.Pack2.C56_quad_edge_lookup`
* Limits and findings: C56_edge_table is exact for all meshes. 'Exactly once' is proved without quadrilaterals and open boundaries (C56_once_partial); it is false for required edges inside a domain (C56_required_twice) and for a quadrilateral beside side 0 of triangle 1 (C56_first_triangle_twice). The triangle look-up is wrong for edges of quadrilaterals (C56_quad_edge_lookup).

### C57 — A moved vertex is moved in the octree (partial)

* Code: `src/mmg3d/PRoctree_3d.c:MMG3D_movePROctree`, `src/mmg3d/PRoctree_3d.c:MMG3D_getPROctreeCoordinate`, `src/mmg3d/movpt_3d.c:MMG5_movintpt_iso`
* Model and proof: `OctModel.lean`: `moveV` with the integer code of a position.
* Theorems: `Mmg.Oct.C57_move_partial`, `Mmg.Oct.C57_move_ignored`, `Mmg.Oct.C57_move_then_delete`, `Mmg.Oct.C57_same_code`
* Limits and findings: Proved when the mesh already holds the new coordinates and the codes differ. False otherwise: with the old coordinates in the mesh (as at all call sites) the move is ignored (C57_move_ignored, C57_move_then_delete); positions of equal code in different cells are not moved either (C57_same_code).

### C58 — 2-3 swaps keep the mesh and its boundary data (partial)

* Code: `src/mmg3d/swap_3d.c:MMG3D_swap23`, `src/mmg3d/mmg3d1.c:MMG3D_anatet4_sim`
* Model and proof: `Swap23Model.lean`: choice of the configuration, new vertices, the thirteen link updates, the three new records, placement in slots with growth. `Reglue.lean`: general theorem on the replacement of tetrahedra in a linked mesh. `Swap23Lemmas/Adj/Props.lean`: the tables are permutations and agree with the edge tables (finite check of the tables), links, faces, edges, volume (ring identity), slots. The tags collected over the shells are inputs.
* Theorems: `Mmg.Swap23.C58_swap_mesh`, `Mmg.Swap23.C58_swap_data_partial`, `Mmg.Swap23.C58_orientation_lost`
* Limits and findings: Adjacency, vertices, volume, references, tags, edges and slots proved for all configurations. The orientation bit of a boundary face of the neighbour is only set, never cleared (C58_orientation_lost); the proved value is the disjunction with the bit of the common face.

### C59 — The shell of an edge lists each tetrahedron around it exactly once (partial)

* Code: `src/mmg3d/boulep_3d.c: MMG5_coquil, MMG3D_findEdge`
* Model and proof: Model of both loops (ShellModel). The turn is a map on pairs (tetrahedron, face of exit); it is injective and never meets a pair reversed, so that a repeated tetrahedron brings back the first pair (ShellLemmas). From this: no repetition, complete component, exact answers (ShellProps). Concrete negation for the starting tetrahedron, whose required tag is not read.
* Theorems: `Mmg.Shell.C59_shell`, `Mmg.Shell.C59_no_shell`, `Mmg.Shell.Ex.C59_start_required`
* Limits and findings: Proved but for one point: a required tetrahedron prevents the list only when it is not the given one (Ex.C59_start_required).

### C60 — Edge tags are set and removed in the whole shell and nowhere else (proved)

* Code: `src/mmg3d/boulep_3d.c: MMG5_settag, MMG3D_settag_oneDir, MMG5_deltag, MMG3D_deltag_oneDir`
* Model and proof: Generic loop with a body; both directions together visit each tetrahedron of the shell once (chains of ShellLemmas, ShellTag); the changes touch different slots, so the final record is described cell by cell. Termination: the loop cannot make more rounds than there are tetrahedra.
* Theorems: `Mmg.Shell.C60_settag`, `Mmg.Shell.C60_deltag`, `Mmg.Shell.C60_settag_agree`

### C61 — Edge data found by turning around the edge (partial)

* Code: `src/mmg3d/colver_3d.c: MMG3D_get_shellEdgeTag, MMG3D_get_shellEdgeTag_oneDir, MMG3D_update_shellEdgeTag, MMG3D_update_shellEdgeTag_oneDir`, `src/mmg3d/boulep_3d.c: MMG5_srcbdy`
* Model and proof: Same generic loop with bodies that may return; what is known at the point of return (ShellGet). Two concrete negations: the reference is overwritten by a record that does not know the edge; the update stops at the first tetrahedron that has the data.
* Theorems: `Mmg.Shell.C61_get`, `Mmg.Shell.C61_get_agree`, `Mmg.Shell.C61_srcbdy`, `Mmg.Shell.C61_update_partial`, `Mmg.Shell.Ex.C61_get_ref_lost`, `Mmg.Shell.Ex.C61_update_stops`
* Limits and findings: Tag search and boundary search proved. The given reference may be changed when no tetrahedron knows the edge (Ex.C61_get_ref_lost); the update is complete only when no tetrahedron has the data before (C61_update_partial, Ex.C61_update_stops).

### C62 — The ball of a vertex lists each tetrahedron around it exactly once (proved)

* Code: `src/mmg3d/boulep_3d.c: MMG5_boulevolp`
* Model and proof: Model of the search with marks and list (Boule3). Invariant: the list has no repetition, its members are reached and hold the vertex, marks are the members, the neighbours of the treated members are in the list; at the end the list is closed under neighbours. The bound on the number of rounds is proved (C62_rounds). Concrete case of two tetrahedra that share only the vertex (Ex.C62_touching).
* Theorems: `Mmg.Boule3.C62_ball`, `Mmg.Boule3.C62_no_ball`, `Mmg.Boule3.C62_rounds`, `Mmg.Boule3.Ex.C62_touching`
* Limits and findings: Tetrahedra that hold the vertex but are not joined to the given one by such faces are not in the list (Ex.C62_touching).

### C63 — Collapse of an edge in 3D keeps the mesh and the boundary data right (partial)

* Code: `src/mmg3d/colver_3d.c: MMG5_colver`, `src/mmg3d/zaldy_3d.c: MMG3D_delElt`
* Model and proof: Model of the whole function but the edge tags (ColverModel). The links and face data of a face in front of the shell are given in closed form from the mesh before; this form is the invariant of the loop (ColverStep, ColverLoop); orientation is kept as a condition. Mesh validity, agreement of both sides, orientation and absence of twins follow at the end (ColverProps). Concrete negations: a negative reference becomes 0 (Ex.C63_negative_ref); the tags of an inner boundary face are lost when the other face is on the outside (Ex.C63_inner_lost).
* Theorems: `Mmg.Colver.C63_safe`, `Mmg.Colver.C63_mesh`, `Mmg.Colver.C63_faces`, `Mmg.Colver.C63_data`, `Mmg.Colver.C63_twins`, `Mmg.Colver.Ex.C63_negative_ref`, `Mmg.Colver.Ex.C63_inner_lost`
* Limits and findings: Proved for references that are not negative, but for one point: when the face with p is on the outside, the merged face gets the data of that face only (C63_data, Ex.C63_inner_lost). Edge tags are not modelled. C63_twins needs that all equal faces are linked before.

### C64 — Insertion of a vertex in a cavity gives a valid mesh with the same volume and boundary (proved)

* Code: `src/mmg3d/delaunay_3d.c: MMG5_delone, MMG5_hashEdgeDelone`, `src/mmg3d/zaldy_3d.c: MMG3D_delElt`
* Model and proof: Model of the two functions (DeloneModel). The loops are refined to a list of events, writes and searches, whose effect does not depend on the table (DeloneGlue, DeloneLoop). A sum over the faces of the cavity around an edge shows that each edge of the surface is on two faces (mod 2), seen in opposite orders (integers) (DeloneSurf, DeloneGeo); the same cancellation gives the volume. Records have their own invariant (DeloneRec). Concrete negation without the hypothesis on edges: C64_pinched.
* Theorems: `Mmg.Delone.C64_total`, `Mmg.Delone.C64_refused`, `Mmg.Delone.C64_tets`, `Mmg.Delone.C64_mesh`, `Mmg.Delone.C64_links`, `Mmg.Delone.C64_oriented`, `Mmg.Delone.C64_volume`, `Mmg.Delone.C64_records`, `Mmg.Delone.C64_pinched`
* Limits and findings: The hypothesis on the edges of the surface is not tested by the function; without it the links may be wrong (C64_pinched). New record slots are not cleared by the function: blank slots above the last one are part of Slots. The allocation of the new tetrahedra is not part of the model.

### C65 — The cavity found for a vertex inserted on an edge is a correct place for the insertion (proved)

* Code: `src/mmg3d/delaunay_3d.c: MMG5_cavity_iso, MMG5_cavity_ani, MMG5_correction_iso, MMG5_correction_ani, MMG5_delone`
* Model and proof: Model of the four functions, sphere and face tests as parameters (CavityModel). Invariants of the growth and of the correction (CavityGrow). Two faces of the surface around an edge, both seen from the vertex, would have wedges that overlap: NoPinch of C64 follows (CavityGeo). Composition with C64 in C65_insert.
* Theorems: `Mmg.Cavity.C65_total`, `Mmg.Cavity.C65_set`, `Mmg.Cavity.C65_surface`, `Mmg.Cavity.C65_boundary`, `Mmg.Cavity.C65_reference`, `Mmg.Cavity.C65_maximal`, `Mmg.Cavity.C65_refused`, `Mmg.Cavity.C65_marks`, `Mmg.Cavity.sound_iso`, `Mmg.Cavity.sound_ani`, `Mmg.Cavity.C65_insert`, `Mmg.Cavity.C65_insert_boundary`
* Limits and findings: Exact arithmetic. The circumscribed spheres are a parameter: nothing is said about the Delaunay property.

### C66 — The operations of the 3D remesher never make tetrahedra overlap (proved)

* Code: `src/mmg3d/delaunay_3d.c: MMG5_cavity_iso, MMG5_cavity_ani, MMG5_delone`, `src/mmg3d/colver_3d.c: MMG5_colver`, `src/mmg3d/swap_3d.c: MMG3D_swap23`, `src/mmg3d/movpt_3d.c: MMG5_movintpt_iso`
* Model and proof: Signs of the determinants of five points: the signed count of the tetrahedra of a star around a generic point is the count of the replaced tetrahedra (OverlapGeo, OverlapStar); degenerate stars by perturbation of the apex. The four operations are stars (OverlapOps, Overlap); sequences by induction.
* Theorems: `Mmg.Over.C66_oriented`, `Mmg.Over.C66_insert`, `Mmg.Over.C66_collapse`, `Mmg.Over.C66_swap`, `Mmg.Over.C66_move`, `Mmg.Over.C66_history`, `Mmg.Over.Ex.C66_boundary_needed`
* Limits and findings: Exact arithmetic. The positive volumes of the new tetrahedra are hypotheses of the steps (tests of the code before the operations).

### C67 — The quality of an element is a shape measure between 0 and 1 (proved)

* Code: `src/mmg3d/inlined_functions_3d_private.h: MMG5_caltet_iso_4pt, MMG5_caltet_ani`, `src/mmg3d/quality_3d.c: MMG5_caltet33_ani`, `src/mmg2d/quality_2d.c: MMG2D_caltri_iso, MMG2D_caltri_ani`, `src/mmg3d/API_functions_3d.c: MMG3D_Get_tetrahedronQuality`
* Model and proof: Real arithmetic. The sum of the squares of the edges is a sum of squares of the three bimedians, whose triple product is the volume; Hadamard's inequality for the Gram matrix of the metric and the inequality of means give the bound and its equality case (QualProps). Triangles by an explicit sum of squares.
* Theorems: `Mmg.Qual.C67_iso_range`, `Mmg.Qual.C67_iso_zero`, `Mmg.Qual.C67_iso_one`, `Mmg.Qual.C67_iso_valid`, `Mmg.Qual.C67_iso_shape`, `Mmg.Qual.C67_iso_order`, `Mmg.Qual.C67_ani_range`, `Mmg.Qual.C67_ani_one`, `Mmg.Qual.C67_mean`, `Mmg.Qual.C67_ani_iso`, `Mmg.Qual.C67_ani_indefinite`, `Mmg.Qual.C67_constant`, `Mmg.Qual.C67_tri_ani`, `Mmg.Qual.C67_tri_iso`, `Mmg.Qual.C67_tri_constant`, `Mmg.Qual.C67_volume`
* Limits and findings: Real arithmetic; rounding is not modelled. The metrics of ridge points (special storage) are not modelled: the mean metric is given.

### C68 — The printed statistics on the qualities are those of the mesh, and the verdict agrees with them (proved)

* Code: `src/mmg3d/quality_3d.c: MMG3D_tetraQual, MMG3D_computeInqua, MMG3D_inqua, MMG3D_computeOutqua, MMG3D_outqua, MMG3D_computeLESqua, MMG3D_displayQualHisto_internal`, `src/common/quality.c: MMG5_minQualCheck`
* Model and proof: The loops as folds over the list of the entries; invariant relating the accumulators to counts over the seen entries, by induction.
* Theorems: `Mmg.Histo.C68_stats`, `Mmg.Histo.C68_worst`, `Mmg.Histo.C68_verdict`, `Mmg.Histo.C68_rows`, `Mmg.Histo.C68_no_row`, `Mmg.Histo.C68_stats_out`, `Mmg.Histo.C68_verdict_out`, `Mmg.Histo.C68_average`, `Mmg.Histo.C68_input`, `Mmg.Histo.C68_agree`, `Mmg.Histo.C68_les_verdict`, `Mmg.Histo.C68_ridge_observed`, `Mmg.Histo.C68_verbosity_observed`
* Limits and findings: Qualities are given; the texts are not modelled.

### C69 — Vertex relocations and collapses accepted by the quality tests keep a valid mesh and bound the loss of quality (proved)

* Code: `src/mmg3d/movpt_3d.c: MMG5_movintpt_iso`, `src/mmg3d/colver_3d.c: MMG5_chkcol_int, MMG5_colver`
* Model and proof: The loops as recursive functions; what an accepted call has passed gives the hypotheses of C66 (the copy with the scratch vertex has the quality of the moved tetrahedron); convex hull by the sign of affine functions; sequences by induction.
* Theorems: `Mmg.Move.C69_move`, `Mmg.Move.C69_quality`, `Mmg.Move.C69_worst`, `Mmg.Move.C69_valid`, `Mmg.Move.C69_hull`, `Mmg.Move.C69_octree`, `Mmg.Move.C69_collapse_test`, `Mmg.Move.C69_collapse`, `Mmg.Move.C69_iso`, `Mmg.Move.C69_history`, `Mmg.Move.Ex.C69_octree_observed`
* Limits and findings: Exact arithmetic. The quality is a function of the four points (isotropic case); the tests of lengths and the tests on new edges between boundary points are parameters.

### C70 — The consistency checks run in debug mode accept exactly the consistent meshes (partial)

* Code: `src/mmg3d/chkmsh_3d.c: MMG5_mmg3dChkmsh`, `src/mmg2d/chkmsh_2d.c: MMG5_mmg2dChkmsh`, `src/mmg2d/boulep_2d.c: MMG2D_boulep`, `src/mmgs/chkmsh_s.c: MMG5_mmgsChkmsh`
* Model and proof: Loops left at the first defect; the answer of a loop is `ok` iff all its tests are; six cases of the comparison of faces are equality of multisets; the first neighbour is in the list of the ball, which gives the vertices of linked edges; witnesses for what is not seen.
* Theorems: `Mmg.Chk.C70_accept`, `Mmg.Chk.C70_links`, `Mmg.Chk.C70_inside`, `Mmg.Chk.C70_2d_accept`, `Mmg.Chk.C70_2d_severe`, `Mmg.Chk.C70_surface`, `Mmg.Chk.Ex.C70_folded_observed`, `Mmg.Chk.Ex.C70_negative_observed`, `Mmg.Chk.Ex.C70_unlinked_observed`, `Mmg.Chk.Ex.C70_2d_vertices_observed`, `Mmg.Chk.Ex.C70_2d_pinch_observed`, `Mmg.Chk.Ex.C70_2d_ref0_observed`, `Mmg.Chk.Ex.C70_surface_open_observed`
* Limits and findings: Equivalences proved for the 3D check, the first parts of the 2D and surface checks; for the severe part of the 2D check one direction (it rejects some valid meshes: Ex.C70_2d_pinch_observed, Ex.C70_2d_ref0_observed). The severe part of the surface check is not modelled. Not seen by the checks: orientation, missing links, negative references in 3D; untagged open edges on surfaces.

### C71 — A remeshing parameter read back is the last value given to it, whatever else was set in between (partial)

* Code: `src/mmg3d/API_functions_3d.c: MMG3D_Set_iparameter, MMG3D_Get_iparameter, MMG3D_Set_dparameter`, `src/mmg2d/API_functions_2d.c: MMG2D_Set_iparameter, MMG2D_Set_dparameter`, `src/mmgs/API_functions_s.c: MMGS_Set_iparameter, MMGS_Get_iparameter, MMGS_Set_dparameter`, `src/common/libtools.c: MMG5_Set_lsBaseReference`
* Model and proof: One record for the fields with their C types as narrowing functions; the value after a history is a fold that only looks at the calls for the parameter; induction on the sequence.
* Theorems: `Mmg.Param.C71_set_get`, `Mmg.Param.C71_frame`, `Mmg.Param.C71_not_taken`, `Mmg.Param.C71_frame_real`, `Mmg.Param.C71_history`, `Mmg.Param.C71_refused`, `Mmg.Param.C71_angle`, `Mmg.Param.C71_real_bounds`, `Mmg.Param.C71_gradation`, `Mmg.Param.C71_2d_sizes`, `Mmg.Param.C71_base`, `Mmg.Param.C71_base_partial`, `Mmg.Param.Ex.C71_unreadable_observed`, `Mmg.Param.Ex.C71_wrap_observed`, `Mmg.Param.Ex.C71_mem_observed`, `Mmg.Param.Ex.C71_angle_observed`, `Mmg.Param.Ex.C71_surface_iso_observed`, `Mmg.Param.Ex.C71_base_observed`, `Mmg.Param.Ex.C71_null_observed`, `Mmg.Param.Ex.C71_2d_refused_observed`, `Mmg.Param.Ex.C71_3d_sizes_observed`, `Mmg.Param.Ex.C71_xreg_observed`
* Limits and findings: The base references of 3D need that none was given before (false otherwise: Ex.C71_base_observed). 3D and surface for what is read: there is no function to read a parameter in 2D.

### C72 — The limits on the numbers of vertices and tetrahedra computed from the allowed memory stay inside the arrays (partial)

* Code: `src/mmg3d/zaldy_3d.c: MMG3D_memOption, MMG3D_memOption_memRepartition, MMG3D_setMeshSize_alloc`, `src/common/tools.c: MMG5_memOption_memSet`, `src/mmg3d/API_functions_3d.c: MMG3D_Set_meshSize, MMG3D_Set_iparameter`, `src/mmg3d/hash_3d.c: MMG5_paktet`
* Model and proof: Limits as functions of the counts and of the memory, monotone in the memory; invariant over sequences of calls; witnesses computed with the sizes of a 64-bit build.
* Theorems: `Mmg.Limit.C72_set_size`, `Mmg.Limit.C72_room`, `Mmg.Limit.C72_lower_partial`, `Mmg.Limit.C72_pack`, `Mmg.Limit.C72_memory`, `Mmg.Limit.Ex.C72_raise_observed`, `Mmg.Limit.Ex.C72_same_value_observed`, `Mmg.Limit.Ex.C72_refused_observed`, `Mmg.Limit.Ex.C72_physical_observed`
* Limits and findings: The limits stay inside the arrays only if the memory was not given before the declaration of the sizes and is not raised after it; the code violates it otherwise. Edges are not counted by the code for the needed memory and are left out of C72_room.

### C73 — A 3D mesh written to a file and read again is the same mesh (proved)

* Code: `src/mmg3d/inout_3d.c: MMG3D_saveMesh, MMG3D_loadMesh_opened, MMG3D_loadMesh`
* Model and proof: Files as lists of tokens; the first pass finds each part (induction on the list of parts, for binary files with the positions written in the file); each list of numbers and each table of rows is read back (induction); the renumbering is the number of used vertices before.
* Theorems: `Mmg.Io.C73_ascii`, `Mmg.Io.C73_binary`, `Mmg.Io.C73_numbers`, `Mmg.Io.C73_again_ascii`, `Mmg.Io.C73_again_binary`, `Mmg.Io.C73_no_tetra`, `Mmg.Io.C73_stale`, `Mmg.Io.Ex.C73_parallel_observed`, `Mmg.Io.Ex.C73_isolated_observed`, `Mmg.Io.Ex.C73_quad_observed`, `Mmg.Io.Ex.C73_tangent_observed`, `Mmg.Io.Ex.C73_binary_stale_observed`
* Limits and findings: Files are lists of words, integers and reals; printing of a real is a function. Quadrilaterals are assumed used in the main theorems (a witness shows the defect when they are not). The tangents, which are written but not read, and files of the other byte order are outside.

### C74 — Discretizing a level set in 3D cuts the mesh along it (partial)

* Code: `src/mmg3d/mmg3d2.c: MMG3D_snpval_ls, MMG3D_cuttet_ls, MMG3D_setref_ls, MMG3D_resetRef_ls, MMG3D_mmg3d2`, `src/mmg3d/split_3d.c: MMG5_split1, MMG5_split2sf, MMG5_split3cone, MMG5_split4op`
* Model and proof: Invariant of the loop that inserts the points over the list of edges; the sign pattern of a tetrahedron determines the pattern of cut edges (decided on all patterns); the pieces by C14/C15 lemmas; termination of the snapping by the number of snapped vertices.
* Theorems: `Mmg.Ls3.C74_snap`, `Mmg.Ls3.C74_points`, `Mmg.Ls3.C74_sides`, `Mmg.Ls3.C74_conform_partial`, `Mmg.Ls3.C74_volume`, `Mmg.Ls3.C74_data`, `Mmg.Ls3.C74_refs`, `Mmg.Ls3.C74_interface`, `Mmg.Ls3.C74_restart`, `Mmg.Ls3.Ex.C74_hanging_observed`, `Mmg.Ls3.Ex.C74_only_unsplit_observed`, `Mmg.Ls3.Ex.C74_memory_observed`, `Mmg.Ls3.Ex.C74_memory_points_observed`
* Limits and findings: The mesh is conforming if no tetrahedron of a reference that is not split has two positive and two negative vertices; a witness shows the hanging node otherwise. The table of edges is assumed to get its memory (witnesses show what happens otherwise). The test on the ball (MMG3D_ismaniball) is a parameter; the removal of small components and the metric are outside.

### C75 — Discretizing a level set cuts a mesh of triangles along it, in the plane and on a surface (proved)

* Code: `src/common/mmg2.c: MMG5_snpval_ls, MMG5_setref_ls, MMG5_resetRef_ls`, `src/mmg2d/mmg2d6.c: MMG2D_cuttri, MMG2D_mmg2d6`, `src/mmgs/mmgs2.c: MMGS_cuttri, MMGS_mmgs2`, `src/mmg2d/split_2d.c: MMG2D_split1, MMG2D_split2`, `src/mmgs/split_s.c: MMGS_split1, MMGS_split2`
* Model and proof: Invariant of the loop that inserts the points; the pieces of one triangle written out and compared with the specification in each case; counting the edges as a multiset of unordered pairs.
* Theorems: `Mmg.Ls2.C75_snap`, `Mmg.Ls2.C75_points`, `Mmg.Ls2.C75_sides`, `Mmg.Ls2.C75_conform`, `Mmg.Ls2.C75_area`, `Mmg.Ls2.C75_point_refs`, `Mmg.Ls2.C75_refs`, `Mmg.Ls2.C75_front_points`, `Mmg.Ls2.C75_interface`, `Mmg.Ls2.C75_restart`, `Mmg.Ls2.Ex.C75_lone_observed`, `Mmg.Ls2.Ex.C75_inner_unsplit_observed`, `Mmg.Ls2.Ex.C75_flat_observed`, `Mmg.Ls2.Ex.C75_only_unsplit_observed`
* Limits and findings: The table of edges is assumed to get its memory; the tests on the balls (MMG5_ismaniball, MMG5_boulet) are parameters; the removal of small components, the check of the result and the metric are outside. Witnesses show a vertex of the level set taken for an isolated zero, an edge inside an unsplit part marked as on the level set, a triangle with three zeros, and the error when only unsplit parts are crossed.

### C76 — Removing the small components of a level set changes these components and nothing else (proved)

* Code: `src/common/mmg2.c: MMG5_rmc, MMG5_vfrac, MMG5_voltri, MMG5_isbr`, `src/mmg3d/mmg3d2.c: MMG3D_rmc, MMG3D_vfrac, MMG3D_vfrac_1vertex`
* Model and proof: The pile of the flood fill is a list without repetition closed under neighbours, hence the component; the marked elements are whole components, whose vertices are not vertices of other components, so that earlier removals do not change later ones; the volume of a part is compared with the divided difference of the truncated power.
* Theorems: `Mmg.Rmc.C76_phase`, `Mmg.Rmc.C76_exists`, `Mmg.Rmc.C76_left`, `Mmg.Rmc.C76_rmc`, `Mmg.Rmc.C76_negative`, `Mmg.Rmc.C76_zero`, `Mmg.Rmc.C76_area`, `Mmg.Rmc.C76_area_sum`, `Mmg.Rmc.C76_volume`, `Mmg.Rmc.C76_volume_sum`, `Mmg.Rmc.C76_tetra`, `Mmg.Rmc.C76_tria`, `Mmg.Rmc.Ex.C76_projected_observed`, `Mmg.Rmc.Ex.C76_small_positive_observed`
* Limits and findings: The memory of the pile is assumed to be given. Witnesses show that on surfaces the areas are those of the projection on the plane of the first two coordinates, so that a large vertical part is removed, and that a removed negative part surrounded by null values leaves a positive part that is too small.

### C77 — The check of a discretized level set accepts exactly the manifold ones (proved)

* Code: `src/common/mmg2.c: MMG5_chkmaniball, MMG5_chkmanimesh`
* Model and proof: The loops are walks along the sequence of the triangles around the vertex; the place where they stop is the first change of reference or the first edge of the level set, from which the verdict follows; induction on the list of the corners for the mesh.
* Theorems: `Mmg.Mani.C77_closed`, `Mmg.Mani.C77_open`, `Mmg.Mani.C77_closed_keep`, `Mmg.Mani.C77_open_keep`, `Mmg.Mani.C77_mesh`, `Mmg.Mani.Ex.C77_mirror_observed`, `Mmg.Mani.Ex.C77_dangling_observed`
* Limits and findings: Release mode (assertions are not evaluated); the first check only warns and is left out. Witnesses: with three materials at a vertex of the boundary, the verdict on a mesh and on its mirror image differ; with the references kept, a curve ending inside the surface is accepted.

### C78 — The triangles of the analysed 3D mesh are exactly its boundary faces, once each (proved)

* Code: `src/mmg3d/hash_3d.c: MMG5_bdryPerm, MMG5_chkBdryTria, MMG5_chkBdryTria_countBoundaries, MMG5_chkBdryTria_hashBoundaries, MMG5_chkBdryTria_flagExtraTriangles, MMG5_chkBdryTria_deleteExtraTriangles, MMG5_bdryTria`
* Model and proof: The face tables are maps on sets of three vertices. Each boundary face has one element that owns it; the loops give the faces of the owners; the count equals the number of owners, so if the kept triangles are as many as counted they are all there (pigeonhole).
* Theorems: `Mmg.Bdry.C78_triangles`, `Mmg.Bdry.C78_number`, `Mmg.Bdry.C78_points`, `Mmg.Bdry.C78_open`, `Mmg.Bdry.C78_new`, `Mmg.Bdry.C78_last`, `Mmg.Bdry.C78_perm`, `Mmg.Bdry.Ex.C78_ref2_observed`, `Mmg.Bdry.Ex.C78_points_iso_observed`
* Limits and findings: Allocation failures are not modelled (the code ignores these return values). Preservation of internal triangles: without prism for the first analysis. Vertices: the level-set mode with prisms is a witness to the contrary. The orientation of a given triangle facing a tetrahedron of reference 2 is not corrected (witness).

### C79 — The reference of a triangle of the user comes back in the final 3D mesh (proved)

* Code: `src/mmg3d/hash_3d.c: MMG5_bdryPerm, MMG5_chkBdryTria, MMG5_bdryTria, MMG5_bdrySet`, `src/mmg3d/libmmg3d.c: MMG3D_bdryBuild`
* Model and proof: The loops of MMG5_bdrySet write each face once; the class of a triangle up to rotation is an invariant of the second loop. The faces with orientation bit are those looked for by the last call (C78_last); a permutation of (face, reference) pairs follows.
* Theorems: `Mmg.Bdry.C79_classic`, `Mmg.Bdry.C79_open`, `Mmg.Bdry.C79_refs`, `Mmg.Bdry.C79_refs_open`, `Mmg.Bdry.C79_user`, `Mmg.Bdry.C79_user_open`, `Mmg.Bdry.Ex.C79_lost_observed`, `Mmg.Bdry.Ex.C79_noside_observed`
* Limits and findings: Edge tags (MMG5_settag), prisms and parallel tags are not modelled; MMG5_setadj (flips of triangles) is left out. Witness: with preservation of internal triangles a triangle between references 1 and 2 can be lost.

### C80 — The analysis of the surface gives the triangles a common orientation and changes nothing else (proved)

* Code: `src/mmg3d/analys_3d.c: MMG5_setadj`, `src/common/hash.c: MMG5_mmgHashTria`
* Model and proof: The state is a renumbering of the three places of each triangle applied to the input (turning a triangle over composes with a transposition); invariant over the sides treated, for tags, marks, component numbers and, when an orientation exists, the parity of the renumberings. The hypotheses follow from C07. A surface of eight triangles that is not orientable and is accepted is a witness that the converse fails.
* Theorems: `Mmg.Orient.C80_ends`, `Mmg.Orient.C80_same_surface`, `Mmg.Orient.C80_oriented`, `Mmg.Orient.C80_error_only_if_not_orientable`, `Mmg.Orient.C80_oriented_unchanged`, `Mmg.Orient.C80_after_C07`, `Mmg.Orient.C80_left_out`, `Mmg.Orient.C80_required_vertices`, `Mmg.Orient.C80_moebius_accepted_observed`
* Limits and findings: The numbering point[].tmp and the counters for messages are not modelled. Witness: a surface that cannot be oriented may be accepted and left with contradictory orientations.

### C81 — The intersection of two 2D metrics asks, in every direction, for a size at most that of both (proved)

* Code: `src/common/mettools.c: MMG5_intersecmet22`, `src/common/eigenv.c: MMG5_eigenv2d, MMG5_eigensym`
* Model and proof: The closed formulas of the code (including the choice of eigenvector formula by the tolerance, and both degenerate branches) are modelled over the reals with exact square roots. The discriminant of the pencil is shown nonnegative by an explicit sum of squares, the eigenvectors nonzero, independent and conjugate; the results follow in the conjugate basis. A witness shows that hmin is not respected.
* Theorems: `Mmg.Met2.C81_reduction`, `Mmg.Met2.C81_covers`, `Mmg.Met2.C81_metric`, `Mmg.Met2.C81_succeeds`, `Mmg.Met2.C81_covers_all`, `Mmg.Met2.C81_hmax`, `Mmg.Met2.C81_hmin_observed`
* Limits and findings: Real arithmetic, exact square root. Witness: the result may ask for a size smaller than hmin although both metrics respect it and the code truncates (along directions that are not orthogonal).

### C82 — The 2D metric given to a point created on an edge lies between those of the ends (proved)

* Code: `src/mmg2d/intmet_2d.c: MMG5_interpmet22, MMG2D_intmet_ani, MMG2D_intmet_iso`, `src/common/eigenv.c: MMG5_eigensym`
* Model and proof: Same simultaneous reduction as C81; the interpolated value d satisfies d <= mean and 1/d <= mean of the inverses, and the lower bound follows by duality (Cauchy-Schwarz in the conjugate basis). A witness shows that for proportional metrics the metric of the end may be lost.
* Theorems: `Mmg.Met2.C82_between`, `Mmg.Met2.C82_range`, `Mmg.Met2.C82_sizes`, `Mmg.Met2.C82_range_all`, `Mmg.Met2.C82_iso`, `Mmg.Met2.C82_endpoint_observed`
* Limits and findings: Real arithmetic, exact square root. Witness: for proportional metrics, if the off-diagonal term of the second is below the tolerance that of the first is dropped, and the metric of the first end is not given back.

### C83 — The 2D analysis marks exactly the boundary edges and the interfaces, and numbers the sub-domains (proved)

* Code: `src/mmg2d/analys_2d.c: MMG2D_setadj`
* Model and proof: The stack-driven traversal is modelled with its incremental updates of the tags (side, neighbour, vertices). The specification 'due' is a closed formula per edge, independent of the traversal. An invariant over the traversal shows that processed sides have their due tags, that pending ones will, that vertices have the union, and that the numbers follow connectivity.
* Theorems: `Mmg.Edge2.C83_analysis`, `Mmg.Edge2.C83_analysis_quads`, `Mmg.Edge2.C83_consistent`, `Mmg.Edge2.C83_edges`, `Mmg.Edge2.C83_square`, `Mmg.Edge2.C83_required_vertex_lost_observed`, `Mmg.Edge2.C83_required_vertex_kept_observed`, `Mmg.Edge2.C83_required_edge_order_observed`
* Limits and findings: Witnesses: with -nosurf a vertex required by the user that lies on an interface loses its status at the final packing; whether the vertices of a required edge keep theirs depends on the place of the edge in its triangle.

### C84 — The edges given by the user in 2D reach the triangles, and those that matter come back (proved)

* Code: `src/mmg2d/hash_2d.c: MMG2D_assignEdge, MMG2D_pack`, `src/mmg2d/analys_2d.c: MMG2D_setadj`, `src/common/hash.c: MMG5_hashEdge, MMG5_hashGet`
* Model and proof: The transfer is modelled on top of the table of C01; the hashed list is shown to represent 'first edge between these vertices', and each side is treated exactly once. The round trip composes it with C83 (tags after the analysis) and C56 (edge table of the packed mesh).
* Theorems: `Mmg.UEdge.C84_assign`, `Mmg.UEdge.C84_quad_sides`, `Mmg.UEdge.C84_round_trip`, `Mmg.UEdge.C84_duplicate_observed`, `Mmg.UEdge.C84_required_side_dropped_observed`
* Limits and findings: The round trip is about a mesh that is analysed and packed without modification in between. Witnesses: of two edges between the same vertices the second is ignored; at the first call the sides required on a triangle are forgotten unless all three are.

### C85 — Splitting an edge of a tetrahedral mesh cuts every tetrahedron around it and keeps the mesh valid (proved)

* Code: `src/mmg3d/split_3d.c: MMG5_split1b, MMG5_split1b_eltspl`, `src/mmg3d/boulep_3d.c: MMG5_coquil`
* Model and proof: Passes of the function over the list (creation, cut, links around the edge, links of open ends) as in the code, with the state after each pass. The hypothesis on the list is the one C59 proves for the list returned by the search of the shell (C85_shell). Invariants of the pass give vertices, links and records; the links are shown symmetric with the general re-gluing lemma; volumes and overlap by barycentric coordinates with respect to the parts.
* Theorems: `Mmg.Spl1b.C85_mesh`, `Mmg.Spl1b.C85_succeeds`, `Mmg.Spl1b.C85_boundary`, `Mmg.Spl1b.C85_faces`, `Mmg.Spl1b.C85_edges`, `Mmg.Spl1b.C85_shell`, `Mmg.Spl1b.C85_volume`, `Mmg.Spl1b.C85_good`, `Mmg.Spl1b.C85_history`
* Limits and findings: The creation of the new vertex and its metric, the ridge and quality updates that follow are not part of it; when an allocation is refused in the middle the mesh is left half cut, as in the code.

### C86 — Swapping an edge inside of a tetrahedral mesh keeps the mesh valid and improves it (proved)

* Code: `src/mmg3d/swapgen_3d.c: MMG5_chkswpgen, MMG5_swpgen`, `src/mmg3d/split_3d.c: MMG5_split1b`, `src/mmg3d/colver_3d.c: MMG5_colver`, `src/mmg3d/boulep_3d.c: MMG5_boulevolp`
* Model and proof: The tour around the edge and the tests of each candidate as in the code; the swap is the composition of the models of C85, C62 and C63. The tour is shown to be the closed shell of the edge in the order of C59; the ball of the new vertex is exactly the 2n parts; the acceptance of a candidate gives what the theorems on the collapse need (no twin tetrahedra, positive volumes, equal references).
* Theorems: `Mmg.Swpg.C86_safe`, `Mmg.Swpg.C86_swap`, `Mmg.Swpg.C86_edge_gone`, `Mmg.Swpg.C86_fem`, `Mmg.Swpg.C86_no_locked_tetra`, `Mmg.Swpg.C86_lost`, `Mmg.Swpg.C86_history`
* Limits and findings: C86_lost is the case excluded in the others: when the ball of the middle vertex does not fit in the list the vertex is given back though tetrahedra have it. The creation of the vertex and its metric are not modelled.

### C87 — Detection of sharp edges and of corners finds exactly those that the angle and the edges around the vertex define (proved)

* Code: `src/mmg3d/analys_3d.c: MMG5_setdhd, MMG5_singul`, `src/mmgs/analys_s.c: setdhd, MMG5_singul`, `src/common/boulep.c: MMG5_bouler`
* Model and proof: The loops as folds over the sides of the triangles in the order of the code; normals, square root and constants are parameters. Invariants over the folds give the edges and the vertices. The turn around a vertex is the one of C17; the list of special edges is shown to have each edge at the vertex once, so that its length does not depend on the start, and the update of the tag of a vertex is idempotent.
* Theorems: `Mmg.Ridge.C87_edges`, `Mmg.Ridge.C87_other_edges`, `Mmg.Ridge.C87_vertices`, `Mmg.Ridge.C87_agree`, `Mmg.Ridge.C87_mmgs`, `Mmg.Ridge.C87_ends`, `Mmg.Ridge.C87_singular`, `Mmg.Ridge.C87_words`, `Mmg.Ridge.C87_vertex_lost_observed`
* Limits and findings: C87_vertex_lost_observed: an end of a ridge on the border of the surface can lose its mark when another ridge at it is removed. The last loops of the function of mmgs are not modelled.

### C88 — Renumbering gives the same mesh with other numbers (proved)

* Code: `src/mmg3d/librnbg_3d.c: MMG5_mmg3dRenumbering, MMG5_swapTet`, `src/common/librnbg.c: MMG5_swapNod, MMG5_kPartBoxCompute`
* Model and proof: The loops as in the code, the result of the partitioner as any permutation (or failure). The exchange loop keeps the invariant that data and table are the first ones composed with one permutation; each exchange puts one more entry at its place, so the loop ends.
* Theorems: `Mmg.Renum.C88_same`, `Mmg.Renum.C88_free`, `Mmg.Renum.C88_no_memory`, `Mmg.Renum.C88_failed_partition_observed`
* Limits and findings: C88_failed_partition_observed: a failure of the partitioner is taken for a success, and a mesh with free slots then loses tetrahedra. Adjacency after the renumbering: C01.

### C89 — Separation of the sub-domains of a 2D triangulation (partial)

* Code: `src/mmg2d/mmg2d2.c: MMG2D_markSD`, `src/mmg2d/zaldy_2d.c: MMG2D_delElt`
* Model and proof: The fill as a loop on (references, list); invariant: what has the current reference is connected to the first triangle, and neighbours of treated triangles have it; a measure on triangles without reference gives termination. Deletion by induction on the list of triangles, each step keeping symmetry of the adjacency.
* Theorems: `Mmg.Subd.C89_regions`, `Mmg.Subd.C89_outside`, `Mmg.Subd.C89_nsd_partial`, `Mmg.Subd.C89_nsd_links_observed`
* Limits and findings: Regions and removal of the outside are proved in full. With the option nsd the set of triangles is proved, but the symmetry of the adjacency is false: C89_nsd_links_observed.

### C90 — Edges of a 3D mesh: from the user to the triangles and back (proved)

* Code: `src/mmg3d/hash_3d.c: MMG5_hNew, MMG5_hEdge, MMG5_hTag, MMG5_hGet, MMG5_hGeom`, `src/mmg3d/libmmg3d.c: MMG3D_bdryBuild`
* Model and proof: Table refined to a partial map on unordered pairs, by a mapping to the table of C01 (whose invariant is used again). The loops on sides by an invariant on the list of treated sides that gives the map and the marks of each side.
* Theorems: `Mmg.GEdge.C90_table`, `Mmg.GEdge.C90_user`, `Mmg.GEdge.C90_infer`, `Mmg.GEdge.C90_output`, `Mmg.GEdge.C90_six_edges`, `Mmg.GEdge.C90_duplicate_observed`, `Mmg.GEdge.C90_one_sided_observed`

### C91 — Insertion of a vertex when a 2D mesh is generated (proved)

* Code: `src/mmg2d/delone_2d.c: MMG2D_cavity, MMG2D_correction_iso, MMG2D_delone, MMG2D_hashEdgeDelone`, `src/mmg2d/mmg2d2.c: MMG2D_insertpointdelone`
* Model and proof: Region: invariant of the two loops of the cavity. That its border is a simple line is proved by crossing numbers (a circulation, so equal for the removed and the new triangles) from the positive areas; so each inner edge of the new triangles has two sides and the table pairs them. Invariant of the loop on sides; then validity, absence of overlaps and equal cover; induction on the sequence.
* Theorems: `Mmg.Del2.C91_cavity`, `Mmg.Del2.C91_answers`, `Mmg.Del2.C91_insert`, `Mmg.Del2.C91_turn`, `Mmg.Del2.C91_history`, `Mmg.Del2.C91_nomem_observed`

### C92 — A solution written to a file and read again is the same solution (partial)

* Code: `src/common/inout.c: MMG5_saveSolHeader, MMG5_loadSolHeader, MMG5_writeDoubleSol3D, MMG5_readDoubleSol3D, MMG5_chkMetricType`, `src/mmg3d/inout_3d.c: MMG3D_saveSol, MMG3D_saveAllSols, MMG3D_loadSol, MMG3D_loadAllSols`, `src/mmg2d/inout_2d.c: MMG2D_saveSol, MMG2D_saveAllSols, MMG2D_loadSol, MMG2D_loadAllSols, MMG2D_writeDoubleSol, MMG2D_readDoubleSol`
* Model and proof: Files are lists of words and numbers, or of bytes with an arbitrary coding of numbers. Round trip by induction on vertices, solutions and components. Binary files: the code also writes a line end after each vertex, so only the first vertex comes back (`_partial`, and for each coding the wrong second value). Names: strings of characters.
* Theorems: `Mmg.SolIo.C92_all`, `Mmg.SolIo.C92_one`, `Mmg.SolIo.C92_binary_partial`, `Mmg.SolIo.C92_binary_observed`, `Mmg.SolIo.C92_binary_wrong_observed`, `Mmg.SolIo.C92_binary_pos_observed`, `Mmg.SolIo.C92_gmsh_observed`, `Mmg.SolIo.C92_cells_observed`, `Mmg.SolIo.C92_nokeyword_observed`, `Mmg.SolIo.C92_name`, `Mmg.SolIo.C92_name_observed`, `Mmg.SolIo.C92_open_observed`, `Mmg.SolIo.C92_stale_observed`
* Limits and findings: ASCII files proved. Binary files: the code writes a line end after each vertex, so the values from the second vertex on are wrong; proved for the first vertex, the types, and all values if nothing were written there.

### C93 — A Lagrangian motion keeps the mesh valid and moves the vertices by exactly the reported part of the displacement (partial)

* Code: `src/common/mmg3.c: MMG5_dikmov`, `src/mmg3d/mmg3d3.c: MMG5_chkmovmesh, MMG5_dispmesh, MMG5_mmg3d3, MMG5_spllag, MMG5_intdispvol`, `src/mmg2d/mmg2d9.c: MMG2D_chkmovmesh, MMG2D_dispmesh, MMG2D_mmg2d9`, `src/mmg3d/velextls_3d.c: MMG5_packLS, MMG5_unpackLS, MMG5_velextLS`, `src/mmg2d/velextls_2d.c: MMG2D_packLS, MMG2D_unpackLS, MMG2D_velextLS`
* Model and proof: Steps as natural numbers out of 32767; dichotomy by the usual invariant; the loops by an invariant that relates position and remaining displacement to tau; remeshing and elasticity are parameters with explicit hypotheses (shown to be satisfiable). Packing: layers by induction with a distance defined inductively; renumbering as a bijection; sides by induction over the list with the marks.
* Theorems: `Mmg.Lag.C93_fraction`, `Mmg.Lag.C93_largest`, `Mmg.Lag.C93_largest_observed`, `Mmg.Lag.C93_motion`, `Mmg.Lag.C93_array`, `Mmg.Lag.C93_array_observed`, `Mmg.Lag.C93_middle`, `Mmg.Lag.C93_volume`, `Mmg.Lag.C93_marks_observed`, `Mmg.Lag.C93_noroom_observed`, `Mmg.Lag.C93_hull`, `Mmg.Lag.C93_extend`, `Mmg.Lag.C93_given`, `Mmg.Lag.C93_sides`, `Mmg.Lag.C93_nosource_observed`
* Limits and findings: The statement on the motion is proved for remeshing and elasticity given as parameters that keep the quality and the given displacements. Observed: the list of invalid elements is written outside of its array when there are more of them than vertices; success is answered when this array cannot be allocated; in 2D a number that was never set is used when no side has the reference of the moving boundary.

### C94 — Local changes of the surface remesher keep a closed or bordered surface conforming, oriented and with its marked edges (partial)

* Code: `src/mmgs/split_s.c: split1b, MMGS_split1, MMGS_split2, MMGS_split3`, `src/mmgs/swapar_s.c: swapar`, `src/mmgs/boulep_s.c: boulechknm`, `src/mmgs/colver_s.c: chkcol, colver, colver3, colver2`, `src/mmgs/mmgs1.c: anaelt, colelt, adpcol`
* Model and proof: Meshes of the 2D operators (C13, C14, C45), whose assignments are the same for split1b, colver and colver3; directed edges in one triangle as an additional invariant. The test of boulechknm gives, with one fan at both ends, that common neighbours are those of the removed triangles; from this the hypotheses of the collapse theorems and the invariant follow. Splitting without links: multisets of directed edges with marks; the edges of the pieces are the halves and pairs of opposite unmarked edges.
* Theorems: `Mmg.Surf.C94_split`, `Mmg.Surf.C94_split_border`, `Mmg.Surf.C94_split_failure_observed`, `Mmg.Surf.C94_swap`, `Mmg.Surf.C94_swap_refused`, `Mmg.Surf.C94_swap_existing_edge_observed`, `Mmg.Surf.C94_collapse`, `Mmg.Surf.C94_two_triangles_test_observed`, `Mmg.Surf.C94_split_all`
* Limits and findings: Each operator proved; a split whose second slot is missing breaks the mesh and a swap onto an existing edge makes an edge of four triangles (proved). Collapse for ends whose triangles form one fan; that this is kept by the operators, and the tests of shape, are not treated.

### C95 — Required vertices, edges and triangles come out of the 2D remesher unchanged (proved)

* Code: `src/mmg2d/mmg2d1.c: MMG2D_anaelt, MMG2D_colelt, MMG2D_swpmsh, MMG2D_adpspl, MMG2D_adpcol, MMG2D_movtri`, `src/mmg2d/split_2d.c: MMG2D_split1b, MMG2D_split1, MMG2D_split2, MMG2D_split3`, `src/mmg2d/swapar_2d.c: MMG2D_swapar`, `src/mmg2d/colver_2d.c: MMG2D_colver, MMG2D_colver3, MMG2D_colver2`, `src/mmg2d/analys_2d.c: MMG2D_setadj`
* Model and proof: The bodies of the loops as steps on a mesh with point positions and tags, operators of Tri2Model/Tri2ColModel (C13, C14, C45); invariant: an edge required in one triangle is required in the other and has required ends. It is established by the analysis (C83) and kept by every step; what each step keeps is composed along histories. Pattern splitting: a required edge has no entry in the edge table, so it is a whole side of one piece.
* Theorems: `Mmg.Req2.C95_required`, `Mmg.Req2.C95_ready`, `Mmg.Req2.C95_user`, `Mmg.Req2.C95_ends_needed_observed`, `Mmg.Req2.C95_both_sides_needed_observed`
* Limits and findings: For the steps of the loops under their preconditions: a collapse has a ball as in C45, new slots are free, the neighbours after the pattern splitting are those of a conforming mesh. Insertion of vertices (mmg2d2), the packing (C83 and Pack2: with -nosurf it may drop the mark) and the metric are not part of it.

### C96 — The inner edges and faces given by the API are each inner edge or face exactly once (proved)

* Code: `src/mmg2d/libmmg2d_tools.c: MMG2D_Get_numberOfNonBdyEdges, MMG2D_Get_nonBdyEdge`, `src/mmg3d/libmmg3d_tools.c: MMG3D_Get_numberOfNonBdyTriangles, MMG3D_Get_nonBdyTriangle`, `src/common/inout.c: MMG5_saveEdge`, `src/common/mmgcommon_private.h: myrealloc, MMG5_SAFE_RECALLOC`
* Model and proof: Both functions as one program over elements with m sides: count loop, growth of the array with its size in bytes in front, fill loop, access by index with the checks of the code and reading outside as an outcome. Proof: both loops are folds over the same list of sides; the filter by the lower element takes one of the two sides of each inner edge.
* Theorems: `Mmg.NonBdy.C96_list`, `Mmg.NonBdy.C96_number`, `Mmg.NonBdy.C96_edges`, `Mmg.NonBdy.C96_faces`, `Mmg.NonBdy.C96_kind2`, `Mmg.NonBdy.C96_kind3`, `Mmg.NonBdy.C96_index_observed`, `Mmg.NonBdy.C96_uncounted_observed`, `Mmg.NonBdy.C96_twice_observed`, `Mmg.NonBdy.C96_poly_observed`, `Mmg.NonBdy.C96_lost_observed`
* Limits and findings: Prisms, and the analysis made by the 3D function when the surface is not there, are left out. The documented refusal of other indices does not hold: C96_index_observed.

### C97 — Required vertices, edges and triangles come out of the surface remesher unchanged (proved)

* Code: `src/mmgs/mmgs1.c: anaelt, adpspl, chkspl, colelt, adpcol, swpmsh, movtri`, `src/mmgs/colver_s.c: chkcol, colver, colver3, colver2`, `src/mmgs/hash_s.c: MMGS_bdryUpdate`, `src/mmgs/analys_s.c: MMGS_setadj`
* Model and proof: The bodies of the loops of mmgs1.c with their tag tests on top of the operators of C94; the pattern splitting as one step with the hashed points, points taken back and the new triangles; the analysis as two passes over a table of edges. Invariant: required marks agree across links and required edges have required ends (as in C95); each body keeps it and keeps the required entities; induction over the history. The collapse is shown to be a merge in the sense of C95, with the case of two triangles that the 2D code does not have.
* Theorems: `Mmg.ReqS.C97_required`, `Mmg.ReqS.C97_ready`, `Mmg.ReqS.C97_user`, `Mmg.ReqS.C97_even`, `Mmg.ReqS.C97_uneven_observed`
* Limits and findings: Triangles of negative reference, which the pattern splitting leaves out, are not modelled. The premises on the mesh at a collapse and at a pattern split are stated in Step; C97_even gives the second on manifold meshes, C97_uneven_observed shows that it is needed.

### C98 — The command line of the 2D program is read as documented (partial)

* Code: `src/mmg2d/libmmg2d_tools.c: MMG2D_parsar, MMG2D_usage`, `src/common/libtools.c: MMG5_mmgUsage, MMG5_paramUsage1`, `src/mmg2d/mmg2d.c: main`
* Model and proof: The function as a program over a list of arguments (lists of characters) with the setters, strtof and atoi as environment and a null pointer as outcome. The specification is a table of options by kind of argument and a grammar of lines with their meaning. Proof: one turn of the loop reads one item, induction over the line.
* Theorems: `Mmg.Arg.C98_reads`, `Mmg.Arg.C98_parsar`, `Mmg.Arg.C98_names`, `Mmg.Arg.C98_safe`, `Mmg.Arg.C98_refused`, `Mmg.Arg.C98_argument`, `Mmg.Arg.C98_unknown_observed`, `Mmg.Arg.C98_verbose_observed`, `Mmg.Arg.C98_missing_observed`, `Mmg.Arg.C98_empty_observed`, `Mmg.Arg.C98_prefix_observed`
* Limits and findings: Reading of documented lines and names proved. Safe but for lines that end with -isoref or -in (C98_missing_observed). Most unknown options are accepted in silence (C98_unknown_observed); C98_refused tells which are refused. The option after a -v without number is lost (C98_verbose_observed).

### C99 — The file of local parameters written by -default can be read back (partial)

* Code: `src/mmg2d/mmg2d.c: MMG2D_writeLocalParam, MMG2D_countLocalParamAtEdg, MMG2D_writeLocalParamAtEdg`, `src/common/apptools.c: MMG5_Add_inode, MMG5_countLocalParamAtTri, MMG5_writeLocalParamAtTri`, `src/mmg2d/libmmg2d_tools.c: MMG2D_parsop`, `src/mmg2d/API_functions_2d.c: MMG2D_Set_localParameter, MMG2D_Set_iparameter`
* Model and proof: The sorted linked list, the file as a list of words, and the reader with its variables as optional values (none: never read, outcome ub when used). Proof: the insertion keeps the list sorted and adds one element; induction over the lines for the reader; an invariant of the table for arbitrary files.
* Theorems: `Mmg.ParFile.C99_list`, `Mmg.ParFile.C99_reads`, `Mmg.ParFile.C99_roundtrip`, `Mmg.ParFile.C99_table`, `Mmg.ParFile.C99_negative`, `Mmg.ParFile.C99_many_observed`, `Mmg.ParFile.C99_negative_observed`, `Mmg.ParFile.C99_cut_observed`, `Mmg.ParFile.C99_stale_observed`, `Mmg.ParFile.C99_unset_observed`, `Mmg.ParFile.C99_last_observed`
* Limits and findings: Writing, reading and the round trip proved for at most 200 entries without negative reference. Beyond 200 entries or with a negative reference the written file is refused (C99_many_observed, C99_negative_observed). Files cut short are accepted with values of the line before, or values never read (C99_stale_observed, C99_cut_observed, C99_unset_observed).

### C100 — Local parameters of the surface library stay inside their table and have the last value given (partial)

* Code: `src/mmgs/API_functions_s.c: MMGS_Set_localParameter, MMGS_Set_iparameter`, `src/mmgs/mmgs.c: MMGS_parsop, MMGS_writeLocalParam, main`, `src/common/mmgcommon_private.h: MMG_FSCANF`
* Model and proof: The table as a list with a capacity and a write outside as outcome; the reader with return values 1, -1 and 0. The specification of the calls counts the distinct references since the last announcement. Proof: the table holds exactly these references (induction over the calls); induction over lines and sections for files.
* Theorems: `Mmg.ParS.C100_overflow`, `Mmg.ParS.C100_values`, `Mmg.ParS.C100_overflow_observed`, `Mmg.ParS.C100_reads`, `Mmg.ParS.C100_roundtrip`, `Mmg.ParS.C100_file_safe`, `Mmg.ParS.C100_short_observed`, `Mmg.ParS.C100_word_observed`, `Mmg.ParS.C100_line_observed`
* Limits and findings: Calls write outside the table exactly if more distinct references are given than announced (C100_overflow), which the library does not refuse (C100_overflow_observed). Values, round trip and safety of files proved. Files with missing lines or a bad number are not refused (C100_short_observed, C100_word_observed).

### C101 — Around a vertex or an edge the strictest of the local parameters that apply are used (partial)

* Code: `src/mmg3d/tools_3d.c: MMG3D_localParamReg, MMG3D_localParamNm`, `src/mmg3d/swap_3d.c: MMG5_chkswpbdy`, `src/mmg2d/anisosiz_2d.c: MMG2D_defmetbdy_2d`
* Model and proof: Loops over the table as functions on lists, with isloc in the state; linear order for sizes. Specification: greatest and least over the entries that apply, or the global values. Proof: invariant of the loops (sizes are those of the entries taken so far), then membership. Order independence from uniqueness of the specification.
* Theorems: `Mmg.LocPar.C101_regular`, `Mmg.LocPar.C101_edge`, `Mmg.LocPar.C101_order`, `Mmg.LocPar.C101_cross_observed`, `Mmg.LocPar.C101_swap_partial`, `Mmg.LocPar.C101_swap_observed`, `Mmg.LocPar.C101_plane_hausd`, `Mmg.LocPar.C101_plane_partial`, `Mmg.LocPar.C101_plane_observed`, `Mmg.LocPar.C101_forget_observed`, `Mmg.LocPar.C101_repair_observed`
* Limits and findings: Proved for regular vertices and edges in 3D except that hmin may be above hmax (C101_cross_observed). Fails for swaps between triangles of equal reference (C101_swap_observed) and for entries on edges in the plane (C101_plane_observed, C101_forget_observed); crossing sizes are repaired once only (C101_repair_observed).

### C102 — The report on edge lengths covers every edge of the mesh once (partial)

* Code: `src/mmg3d/quality_3d.c: MMG3D_computePrilen`, `src/mmgs/quality_s.c: MMGS_prilen`, `src/mmg2d/length_2d.c: MMG2D_prilen`, `src/mmg3d/hash_3d.c: MMG5_hashPop`
* Model and proof: Edges looked at as a list of (end points, length), the report as a fold over it. Specification of the numbers over lists (length, sum, least, greatest, counts per column). Proof: induction from the end of the list for the numbers; for tetrahedra an invariant of the set of edges still in the table; in the plane by comparing the numbers of the two triangles.
* Theorems: `Mmg.LenRep.C102_numbers`, `Mmg.LenRep.C102_columns`, `Mmg.LenRep.C102_columns_plane_partial`, `Mmg.LenRep.C102_column_observed`, `Mmg.LenRep.C102_once`, `Mmg.LenRep.C102_total`, `Mmg.LenRep.C102_surface_observed`, `Mmg.LenRep.C102_plane_partial`, `Mmg.LenRep.C102_plane_observed`, `Mmg.LenRep.C102_mean_observed`
* Limits and findings: 3D: every edge once, except edges whose tetrahedra have only ordinary ridge vertices. Surfaces: every edge is counted once per triangle (C102_surface_observed). Plane: boundary edges are not counted (C102_plane_observed), the column of a length of 0.7071 is missing (C102_column_observed). The hash table is taken as a set here; that removals behave so is C103.

### C103 — Removing an edge from the edge table removes this edge only, and says whether it was there (proved)

* Code: `src/mmg3d/hash_3d.c: MMG5_hashPop`, `src/common/hash.c: MMG5_hashEdge, MMG5_hashGet`
* Model and proof: On the table of C01. Invariant: the cells in use form chains from their bucket (increasing in a rank that insertions extend; the cells given back form a list that ends in the never used cells), each key once, with the values of an abstract map; a removal is the removal of the cell after another one, preceded by an exchange of two cells when the first cell of a bucket goes. Histories by induction over the calls.
* Theorems: `Mmg.Hash.C103_pop`, `Mmg.Hash.C103_once`
* Limits and findings: Removals, insertions and lookups in any order after any history of the calls of C01; a history stops early only at an insertion for which the allocator refuses to grow the table. Cells given back and taken again, and growth of the table, are covered.

### C104 — With -optim the size asked for at a vertex is the mean length of its edges (partial)

* Code: `src/mmg3d/libmmg3d_tools.c: MMG3D_doSol_iso`, `src/mmgs/libmmgs_tools.c: MMGS_doSol_iso`, `src/mmg2d/solmap_2d.c: MMG2D_doSol_iso`
* Model and proof: The two arrays as functions, the loops as folds over elements and local edges, sizes in an ordered field. Proof: the folds are sums over the list of edge ends at the vertex (induction from the end of the list); bounds of a sum; permutation of the list.
* Theorems: `Mmg.Mean.C104_weighted`, `Mmg.Mean.C104_between`, `Mmg.Mean.C104_uniform`, `Mmg.Mean.C104_order`, `Mmg.Mean.C104_mean_observed`
* Limits and findings: Bounds, uniform case and order proved. The size is a mean in which each edge counts once per element that has it (C104_weighted), so it is not the mean over the edges (C104_mean_observed). Rounding and the truncation that follows are not part of it.

### C105 — The neighbours of a vertex of a triangulation, asked through the API, are all its neighbours, once each (partial)

* Code: `src/mmg2d/libmmg2d_tools.c: MMG2D_Get_adjaVerticesFast, MMG2D_Get_adjaVertices`, `src/mmgs/libmmgs_tools.c: MMGS_Get_adjaVerticesFast`
* Model and proof: The two loops over the triangle mesh of C13, with the room left as a decreasing argument. Proof: the corners visited are those of C17; every corner but the last one has a next one, whose following vertex is the third vertex; a directed edge belongs to one triangle, so no vertex is listed twice.
* Theorems: `Mmg.Tri2.C105_neighbours`, `Mmg.Tri2.C105_once`, `Mmg.Tri2.C105_failure`, `Mmg.Tri2.C105_joined_partial`, `Mmg.Tri2.C105_touching_observed`
* Limits and findings: Proved for the triangles joined to the given one by edges through the vertex, open or closed. Where two parts of the mesh touch at the vertex only, the neighbours in the other part are not listed (C105_touching_observed). The adjacency table must exist: unlike MMG2D_Get_adjaTri the function does not build it; the search of a first triangle (MMG2D_findTria) is not modelled.

### C106 — The tetrahedra of a triangle of the final mesh, asked through the API, are those that have it as a face (partial)

* Code: `src/mmg3d/hash_3d.c: MMG5_bdryTria`, `src/mmg3d/libmmg3d_tools.c: MMG3D_Get_tetFromTria, MMG3D_Get_tetsFromTria`
* Model and proof: The loops of C78 with the field that links a triangle to its element (proved to give the same triangles). Proof: invariant of the list of triangles over the loop on the faces; division by 4; the neighbours are right (C04, C05).
* Theorems: `Mmg.Bdry.C106_tet_partial`, `Mmg.Bdry.C106_all_triangles`, `Mmg.Bdry.C106_faces`, `Mmg.Bdry.C106_both`, `Mmg.Bdry.C106_prism_observed`
* Limits and findings: Proved for meshes without prism, and for the triangles made from tetrahedra in any mesh. For a triangle made from a prism the link is 5k+i but is read as 4k+i, so a tetrahedron without this triangle is answered (C106_prism_observed).

### C107 — Vertices and tetrahedra added through the API are in the mesh as given (partial)

* Code: `src/mmg3d/API_functions_3d.c: MMG3D_Add_vertex, MMG3D_Add_tetrahedron`, `src/mmg3d/zaldy_3d.c: MMG3D_newPt, MMG3D_newElt`
* Model and proof: The slot tables of C08/C09 with the two functions on top of them. Proof: invariant of the chain of free slots in a table without deletions, then induction over the calls; the volume changes sign when two vertices are exchanged.
* Theorems: `Mmg.Add.C107_vertex_partial`, `Mmg.Add.C107_tet`, `Mmg.Add.C107_history_partial`, `Mmg.Add.C107_reference_observed`, `Mmg.Add.C107_zero_observed`
* Limits and findings: Proved for coordinates, tetrahedra, their references and the numbers answered, for all sequences of calls. The reference given for a vertex is lost: 0 is stored (C107_reference_observed). A tetrahedron with the vertex number 0 is not refused (C107_zero_observed).

### C108 — The check of a 3D mesh lists exactly the tetrahedra that are bad (partial)

* Code: `src/mmg3d/libmmg3d_tools.c: MMG3D_mmg3dcheck, MMG3D_searchqua, MMG3D_searchlen`
* Model and proof: The loops over tetrahedra with the table of edges as a set (C01, C103); qualities and lengths by the two functions are data. Proof: induction over the edges of a tetrahedron and over the tetrahedra: an edge out of bounds stays in the table until a tetrahedron with it is marked.
* Theorems: `Mmg.LenRep.C108_quality`, `Mmg.LenRep.C108_sound`, `Mmg.LenRep.C108_covered_partial`, `Mmg.LenRep.C108_first`, `Mmg.LenRep.C108_check`, `Mmg.LenRep.C108_all_observed`, `Mmg.LenRep.C108_storage_observed`
* Limits and findings: Exact for qualities. For lengths each tetrahedron listed has an edge out of bounds, and of the tetrahedra with such an edge the first is listed; but the other tetrahedra with this edge are not listed (C108_all_observed), and the length function of the other storage is called (C108_storage_observed), for scalar sizes one that reads tensors.

### C109 — A mesh to which vertices or tetrahedra were added through the API is accepted by the check of the data and read from first to last (partial)

* Code: `src/mmg3d/API_functions_3d.c: MMG3D_Chk_meshData, MMG3D_Get_vertex, MMG3D_Get_tetrahedron, MMG3D_Add_vertex, MMG3D_Add_tetrahedron`
* Model and proof: The counters as numbers beside the mesh of C107. Proof: induction over the calls; the history theorem of C107 for the check.
* Theorems: `Mmg.Add.C109_sweep_partial`, `Mmg.Add.C109_order_observed`, `Mmg.Add.C109_check`, `Mmg.Add.C109_refused_observed`
* Limits and findings: Proved without additions. After additions every vertex is still read once, but the added ones first (C109_order_observed), and the check refuses the mesh because its counters are not at the last entities (C109_refused_observed).

## Disagreements between the code and its documentation, proved with a witness

Each item is a theorem (see the property for its name).

* C02: the edge table needs `hmax >= hsiz`; otherwise the free chain starts inside the buckets.
* C04: the adjacency construction requires a packed element array.
* C07: a repeated triangle marks a regular edge non-manifold, or takes over a link, or is not
  discarded.
* C08: double deletion of a point corrupts the free chain; with `npmax = np` the first creation
  reads outside the array; a slot is lost when the boundary table cannot grow.
* C11/C54/C55: packing a mesh without used point reads before the array; the normal of the last
  vertex is not copied; a stale link of the free chain hands out a used point after packing; an
  unused prism may stay counted.
* C12/C56: count of the third solution not updated in 2D; required interior edges are listed
  twice; the edge of a quadrilateral beside side 0 of triangle 1 is listed twice; triangle
  look-up is wrong for edges of quadrilaterals.
* C15: barycentric split puts the tags on the wrong edges.
* C18: memory counter drifts after a refused growth; requests near 2^64 wrap around.
* C20: the zone search gives up on mid-planes and when too many cells are met; the filter then
  accepts any point.
* C21/C22: `MMG5_isNotSplit` answers the opposite; references unseen at set-up are looked up out
  of bounds; replacing a row may corrupt the map.
* C23–C29: position 0 accepted, negative positions undefined; refused null tetrahedra stay stored;
  prism block getter exchanges two vertices; static cursors shared by meshes; last solution
  position refused; refusals ignored for vectors and tensors; index np+1 wraps; full local
  parameter table frozen.
* C30: the isosurface removal duplicates the last kept entity.
* C31–C34, C52: values at unused vertices not restored; failed scaling leaves the mesh scaled;
  invalid sizes rejected only once per process; hmin > hmax accepted; hmax = 0 gives hmin = 0;
  tensor metric of uniform size two (mesh units) replaced by tiny sizes.
* C36: inversion drops off-diagonal entries below 1e-6.
* C38: `dir/.name` is given an extension; removal uses the first occurrence.
* C42: prism adjacency confuses triangular and quadrilateral faces in non-conforming meshes.
* C44: the reverse loop of `MMG5_boulep` crosses the wrong edge.
* C45: collapse of a boundary vertex sets the tag on one side only.
* C46: one branch of split3op loses an orientation flag; split6 reads an uninitialised tag.
* C48: the split loop may ignore a point on one side of an edge.
* C53: surface required gradation ignores the third coordinate.
* C58: the 2-3 swap loses the orientation bit of a boundary face of the neighbour (the bit is only
  ever set); the branch for a neighbour without record is never taken because the test reads the
  tetrahedron after it was overwritten.
* C59: the list of a closed shell is given although the starting tetrahedron is required (the
  documentation says 0 when one tetrahedron is required).
* C61: `MMG3D_get_shellEdgeTag` overwrites the reference with the one of a record that does not know
  the edge as a boundary edge; `MMG3D_update_shellEdgeTag` stops at the first record that has the
  data, the ones behind keep theirs.
* C63: the collapse replaces a negative face reference by 0 (it takes the maximum with the 0 of a face
  that is not on the boundary; `MMG3D_Set_triangle` accepts negative references); when the face with
  the removed vertex is on the outside, tags and reference of the inner boundary face merged with it
  are lost.
* C64: on a pinched cavity (an edge of the surface on four faces) the insertion gives links that are
  not symmetric; the function does not test it. It cannot happen after a success of the search of the
  cavity in a mesh without overlaps (C65).
* C66: positive volumes of the new tetrahedra do not prevent overlaps when a boundary vertex is moved or
  collapsed (a part of the boundary may cross another one); the code has no other test.
* C67: the anisotropic quality is not a number for some metrics of positive determinant; the 2D constant is
  rounded above its exact value, equilateral triangles have a quality above 1.
* C68: after the remeshing tetrahedra with four ridge points lower the printed average; no class is printed
  when the worst quality is 1; the final verdict is always a success with a verbosity of 0; with optimLES a
  perfect mesh is refused (verbosity 1 or 2) and a flat tetrahedron is not.
* C69: the relocation of an interior vertex gives to the octree, as the old position, the one of the first
  vertex of the last tetrahedron around it.
* C70: the 3D check accepts neighbours folded on each other and unlinked equal faces, and does not look at
  tetrahedra with negative references; the answers of its tests of edge tags are dropped. The 2D check
  (debug mode) rejects valid meshes: two parts that share one vertex only, and a mesh with reference 0 whose
  boundary edges are given (the reference is compared with the one of the unused slot 0). The message
  "missing edge tag" of the surface check can never be given for an open edge.
* C71: ten parameters of 3D can be set but not read; values are narrowed to one byte (noswap 256 is 0); a
  memory of 0 is announced as reset to the default and keeps the old value; an angle of detection of 90
  degrees or more is read as no detection; the level-set mode of surfaces cannot be turned off; 2D bounds of
  the size that are refused are stored; 3D base references given after a second declaration are refused and
  the stored ones are 0; after a refused allocation of the local parameters a NULL pointer is used.
* C72: raising the allowed memory after the sizes were declared (or giving the same value again) makes the
  limits exceed the arrays, the rebuilding of the free chain then writes behind them; a refused value does
  the same; the comparison with the physical memory uses the last value instead.
* C73: a required quadrilateral behind an unused one is written with its number before packing; the ranks of
  the tangents are wrong in binary files; the counts of the object that reads are not reset (a file without
  triangles is refused, the vertices of a binary file are looked for at its beginning); isolated corners
  disappear at the second writing; parallel entities are lost in binary files.
* C74: a tetrahedron of a reference that is not split, with two positive and two negative vertices, is not cut
  although neighbours put points on its edges (a hanging node, no error); an error is returned when the level set
  only crosses references that are not split; a lack of memory of the table of edges is taken as a success.
* C75: in the search of isolated zeros the second neighbour is read at an index of another triangle, so that a
  boundary vertex on the level set is moved away; an edge inside a part that is not split gets the reference of the
  level set when its ends are new points; a triangle whose three values are 0 is put in the inner part; an error is
  returned when the level set only crosses references that are not split.
* C76: for surface meshes the areas of the components are those of their projection on the plane of the first two
  coordinates; the positive components are looked at before the negative ones, so that a removed negative component
  surrounded by null values leaves a positive component that is too small.
* C77: with three materials at a vertex of the boundary the check of the level set refuses a mesh and accepts its mirror
  image; with the references kept, a level-set edge ending inside the surface is accepted although an assertion fails.
* C78: the orientation of a triangle given by the user between a tetrahedron of reference 2 and one of reference 1 is not
  corrected, even without level set (`MG_PLUS` is tested without `info.iso`).  In level-set mode with a prism, if the user
  gives all the triangles no vertex is flagged as a boundary one by this step.
* C79: when internal triangles are preserved, a triangle of the user between the references 1 and 2 given with the orientation
  of the first one is not in the final mesh (it is with references 1 and 3).  Without this option no side gets its
  orientation bit if it is given from another vertex, so the tags of its edges are not transferred.
* C80: the sign that tells whether a triangle has been seen is changed at each visit; a triangle visited twice can be turned
  over again, so a non-orientable surface may be accepted with contradictory orientations on unmarked edges.
* C81: the truncation of the intersected 2D metric by hmin is done along conjugate directions, which are not orthogonal; the
  result may ask for sizes below hmin.
* C82: for proportional 2D metrics the off-diagonal term of the first metric is dropped as soon as that of the second is below
  the tolerance; the metric at the end of the edge is then not the one of the end.
* C83: with -nosurf in 2D, a vertex required by the user that lies on an interface gets the mark of frozen vertices and loses its
  status of required vertex at the packing; whether the vertices of a required edge keep theirs depends on the place of the
  edge in its triangle.
* C84: if the user gives two edges between the same vertices the second one (reference, required status) is ignored without
  a warning; required sides of triangles are forgotten at the first call unless all three are required.
* C86: `MMG5_chkswpgen` accepts edges with up to `MMG3D_LMAX - 3` tetrahedra around them, but the ball of the middle vertex has
  twice as many and the list has room for `MMG3D_LMAX - 2`.  With more than half of it `MMG5_boulevolp` returns 0,
  `MMG5_colver` does nothing, and the vertex is deleted though tetrahedra have it (`C86_lost`).
* C87: `MMG5_setdhd` removes the mark of ridge from the ends of a flat ridge and gives it back only for edges between two
  triangles; an end of a ridge on the border of an open surface loses it (`C87_vertex_lost_observed`), and `MMG5_singul` then
  does not look at this vertex.
* C88: `MMG5_kPartBoxCompute` returns 0 both for success and when `SCOTCH_graphMap` or its allocation fails.  The table of the
  new numbers is then zero, nothing is moved, but `ne` becomes the number of valid tetrahedra: with free slots the last
  tetrahedra are lost and those kept in the slots after keep old vertex numbers (`C88_failed_partition_observed`).
* C89: with the option `nsd` the triangles of the other sub-domains are deleted without update of the adjacency of their
  neighbours (`MMG2D_markSD`, the last loop), so that a triangle that remains has a deleted one as neighbour
  (`C89_nsd_links_observed`); the table is not built again since `MMG2D_hashTria` returns when it exists.
* C90: of two edges of the user with the same ends `MMG5_hEdge` keeps the first and drops the tags of the second, even when
  these make the edge required (`C90_duplicate_observed`). A tag that only the triangle treated second has on a given edge
  reaches the table but not the side of the triangle treated first (`C90_one_sided_observed`).
* C91: `MMG2D_insertpointdelone` (mmg2d2.c 250) tests `!MMG2D_delone(..)`, so that the answer -1 for lack of memory counts as an
  inserted vertex though no triangle has it (`C91_nomem_observed`).
* C92: `saveSol` and `saveAllSols` write `fprintf(inm,"\n")` after each vertex in binary files too (inout_3d.c 2338, 2406, 2422;
  inout_2d.c 1653, 1744, 1760), so from the second vertex on `loadSol` reads shifted bytes (`C92_binary_observed`; the value is right only
  if its eight bytes are line ends, `C92_binary_wrong_observed`); the position of the end in the header is too small by the number of
  vertices (`C92_binary_pos_observed`). With `-3dMedit` the 2D output has more numbers for each vertex than are read
  (`C92_gmsh_observed`). A file with solutions at cells only (`C92_cells_observed`) or without `SolAtVertices`
  (`C92_nokeyword_observed`) is used without tests. `MMG5_saveSolHeader` writes through a null pointer when a file cannot be opened
  (`C92_open_observed`). Saving cuts the name at the first `.mesh`, loading at the last one, and a directory `d.sol` makes saving
  overwrite the mesh (`C92_name_observed`). An old `name.solb` is loaded instead of the `name.sol` just saved
  (`C92_stale_observed`).
* C93: the list of the invalid elements after a refused Lagrangian motion has room for as many integers as there are vertices, but there
  may be more elements (`C93_array`, `C93_array_observed`); when it cannot be allocated, the answer is success though nothing has moved
  (`C93_noroom_observed`); the fraction of `MMG5_dikmov`, documented as the largest valid one, is only one whose successor is not valid
  (`C93_largest_observed`; it is the largest if validity is monotone, `C93_largest`); the marks of distorted elements of the first pass
  cannot be told from the initial ones (`C93_marks_observed`); in 2D, without an edge of the moving boundary, `npf` is used without a
  value (`C93_nosource_observed`).
* C94: `split1b` (mmgs) deletes the first new triangle when the second cannot be had, but has already cut and linked the old one
  (`C94_split_failure_observed`). `swapar` does not look whether the new edge exists (`C94_swap_existing_edge_observed`). `chkcol` compares,
  for a ball of two triangles, the removed vertex with itself instead of the other end (`C94_two_triangles_test_observed`), and reads the
  scratch triangle 0 when the second triangle has no neighbour.
* C95: the collapse looks at the tag of the vertex and of the collapsed edge only, the swap at the tag on one side only; a required edge
  whose ends are not marked, or that is marked on one side, would be lost (`C95_ends_needed_observed`,
  `C95_both_sides_needed_observed`). The analysis gives these marks (`C95_ready`).
* C96: `MMG2D_Get_nonBdyEdge` and `MMG3D_Get_nonBdyTriangle` take the number of bytes in front of the array for a number of cells
  (`MMG5_saveEdge` divides it by the size of a cell): an index one above the number told is always read outside of the array
  (`C96_index_observed`), and index 1 too if the number was never asked (`C96_uncounted_observed`), instead of the documented error.
  Asking the number twice stops a program built with assertions (`C96_twice_observed`; saving in Tetgen format asks it too). A `.poly`
  file written after it holds the inner edges as boundary edges (`C96_poly_observed`). If the system gives no memory, the boundary
  entities are freed (`C96_lost_observed`). Read, not modelled: `MMG5_saveEdge` leaves no room for the end of the file name.
* C97: the pattern splitting of the surface remesher has no test of tags in the step that cuts triangles: a required edge is only safe if
  all triangles that have it carry the mark, neighbours or not (`C97_uneven_observed`). `MMGS_bdryUpdate` provides this (`C97_ready`), but
  goes on if its table gets no memory.
* C98: `MMG2D_parsar` gives a null pointer to `atoi` if the line ends with `-isoref` (the test is `++i <= argc`; the same in the surface
  and 3D programs) and to `%s` if it ends with `-in` (`C98_missing_observed`). The usage text has `-v [n]`, but the option after a `-v`
  without number is taken for the number and lost (`C98_verbose_observed`; the surface program has the same lines), and `-v` at the end is
  refused. Options that are not known are passed over in silence if another option has the same first letter, so that their argument
  becomes a file name (`C98_unknown_observed`); everything that begins with `-A` or `-d` is taken for `-A`, `-d`
  (`C98_prefix_observed`). An empty argument is taken for the number 0 (`C98_empty_observed`). Read, not modelled: numbers are read
  with `strtof`, so sizes have single precision.
* C99: the writer puts no limit on the number of lines, the reader refuses more than 200 (`MMG5_LPARMAX`): a mesh with more than 200
  references of edges and triangles together gives a `-default` file that cannot be read back (`C99_many_observed`); the same if a
  reference is negative (`C99_negative_observed`). The reader tests `!ret` after `fscanf`, which is false at the end of the file and
  after an incomplete line: `parameters` at the end of the file uses a number that was never read (`C99_cut_observed`), a line with
  values missing takes those of the line before (`C99_stale_observed`) or values never read (`C99_unset_observed`). If no white space
  follows the last word of the file, the word is not looked at (`C99_last_observed`).
* C100: `MMGS_Set_localParameter` tests `npari > npar` where the other two libraries test `npari >= npar`: after `n` parameters have been
  announced, a parameter for an (n+1)-th reference is written one place after the end of the table (`C100_overflow_observed`; it happens
  exactly then, `C100_overflow`). `MMGS_parsop` leaves with -1 when a number cannot be read, and `main` tests `!MMGS_parsop(..)`: a file
  with fewer lines than announced or with a word in place of the number is reported as a reading error, and the remeshing goes on
  without the missing parameters (`C100_short_observed`, `C100_word_observed`).
* C101: in `MMG5_chkswpbdy`, when the two triangles have the same reference, the reference of the entry is not tested: the `hausd` of the
  first entry on triangles decides on every swap (`C101_swap_observed`). In `MMG2D_defmetbdy_2d` an entry on an edge does not set `isloc`:
  the next entry replaces its `hmin` and `hmax` instead of being combined with them, and the sizes depend on the order of the ball
  (`C101_plane_observed`, `C101_forget_observed`). Sizes with `hmin > hmax` are repaired together with the first warning only
  (`C101_repair_observed`); in 3D they are not tested at all (`C101_cross_observed`). Read, not modelled: `MMG2D_defsiz_iso` does not look
  at the `hmin` of entries on triangles and edges.
* C102: `MMGS_prilen` calls `MMG5_hashGet` where the 3D function calls `MMG5_hashPop` and does not look at the answer: nothing is removed and
  every edge is counted once per triangle (`C102_surface_observed`). `MMG2D_prilen` skips edges with `adja < 3*k`, which includes 0: edges
  of the outer boundary are never counted (`C102_plane_observed`), and for a mesh of one triangle the mean is 0/0 (`C102_mean_observed`).
  Its histogram has no column for a length equal to 0.7071 (`C102_column_observed`).
* C104: `MMG*_doSol_iso` is documented as the mean of the lengths of the edges through a point; the loops over the elements count an edge
  once per element (`C104_weighted`), so inner edges weigh more than boundary edges (`C104_mean_observed`).
* C105: `MMG2D_Get_adjaVerticesFast` lists the neighbours in one fan only (`C105_touching_observed`), and reads the adjacency table without
  building it when it does not exist, unlike `MMG2D_Get_adjaTri` (seen in the code; the model takes the table as built).
* C106: `MMG3D_Get_tetFromTria` divides the field `cc` by 4 also for triangles made from prisms, where `MMG5_bdryTria` stores `5*k + i`; the
  answer is a tetrahedron without this triangle (`C106_prism_observed`).
* C107: `MMG3D_Add_vertex` is documented to add a vertex with the reference `ref`; the argument is never read and 0 is stored
  (`C107_reference_observed`). `MMG3D_Add_tetrahedron` tests only that vertices are not above the last one, so vertex 0 is taken
  (`C107_zero_observed`).
* C108: `MMG3D_searchlen` is documented to list the elements with a too short or too long edge; it lists one of the tetrahedra around such an edge
  (`C108_all_observed`). It also calls the length functions the other way round (compare `MMG3D_computePrilen`, quality_3d.c:301-307); with scalar
  sizes `MMG5_lenedg33_ani` reads tensors (`C108_storage_observed`).
* C109: `MMG3D_Add_vertex` and `MMG3D_Add_tetrahedron` leave `npi` and `nei` behind, so `MMG3D_Chk_meshData` refuses the mesh
  (`C109_refused_observed`) and `MMG3D_Get_vertex` starts with the first added vertex (`C109_order_observed`).
* C57: moving a vertex in the octree has no effect at the call sites.

## Seen while reading, not proved

* `MMG3D_seekIndex` drops the values of its recursive calls (the list of cells is not sorted).
* `MMG5_snpval_ls` (mmg2.c:582) uses `iprv2[i]` where `iprv2[j]` is meant.
* `MMG3D_Add_vertex` ignores its `ref` argument.
* `MMG3D_skipIso` updates the memory counter without `sizeof`.
* Re-declaring the number of materials leaks the look-up table.
* `MMG2D_swapdelone` moves the edge references but not the tags.
* `MMG5_Get_format` matches prefixes of extensions.
* `keep_only1Subdomain` takes an `int` while the sub-domain number is an `MMG5_int`.
* Children of a split with only edge tags lose their boundary record.
* `MMG5_correction_*` compare `ipil <= nedep`: the first tetrahedron behind the shell cannot be removed
  from the cavity, the insertion is refused instead.
* The anisotropic insertion filter accepts a point whose metric is not positive definite.


## Not modelled

The remeshing drivers (order of the waves, convergence), length computations, the LES quality,
anisotropic metric interpolation and gradation, boundary recovery in 2D (`enforcement_2d`,
`mmg2d2`), circumscribed spheres (`MMG5_cenrad_*`), validity tests of the 3D collapses of boundary vertices and general edge swaps
(`chkcol_bdy`, `swapgen_3d`), boundary analysis (`analys_*`), level-set discretisation except where listed,
lagrangian motion, file input/output except C73 (solutions, 2D, surfaces, VTK, Gmsh), Scotch renumbering, VTK, command-line parsing,
and the mmgs operators. Floating-point rounding and 32-bit overflow are not modelled anywhere
(C18 excepted).


## Axioms per theorem

Output of `#print axioms` for every theorem named in `MANIFEST.json`.

* **propext, Classical.choice, Quot.sound** (532 theorems): `Mmg.Add.C107_history_partial`, `Mmg.Add.C107_reference_observed`, `Mmg.Add.C107_tet`, `Mmg.Add.C107_vertex_partial`, `Mmg.Add.C107_zero_observed`, `Mmg.Add.C109_check`, `Mmg.Add.C109_refused_observed`, `Mmg.Adj.C04_no_self_adjacency`, `Mmg.Adj.C04_packing_needed`, `Mmg.Adj.C04_tetra_adjacency_symmetric`, `Mmg.Adj.C05_tetra_adjacency_complete`, `Mmg.Adj.C06_tria_adjacency`, `Mmg.Adj.C06_tria_boundary_iff`, `Mmg.Adj.C42_prism_adjacency_conforming`, `Mmg.Adj.C42_prism_adjacency_partial`, `Mmg.Adj.C42_prism_confusion`, `Mmg.Api.C23_histories_run`, `Mmg.Api.C23_vertex_round_trip`, `Mmg.Api.C24_get_tetrahedra`, `Mmg.Api.C24_positive_kept`, `Mmg.Api.C24_set_tetrahedra`, `Mmg.Api.C24_set_tetrahedra_refused`, `Mmg.Api.C24_set_tetrahedron`, `Mmg.Api.C24_vertices_used`, `Mmg.Api.C25_edge_round_trip`, `Mmg.Api.C25_prism_round_trip_false`, `Mmg.Api.C25_prism_round_trip_partial`, `Mmg.Api.C25_quadrilateral_round_trip`, `Mmg.Api.C25_triangle_round_trip`, `Mmg.Api.C29_edge_flags`, `Mmg.Api.C29_tetrahedron_flags`, `Mmg.Api.C29_triangle_flags`, `Mmg.Api.C29_vertex_flags`, `Mmg.Arg.C98_argument`, `Mmg.Arg.C98_empty_observed`, `Mmg.Arg.C98_missing_observed`, `Mmg.Arg.C98_parsar`, `Mmg.Arg.C98_prefix_observed`, `Mmg.Arg.C98_reads`, `Mmg.Arg.C98_refused`, `Mmg.Arg.C98_safe`, `Mmg.Arg.C98_unknown_observed`, `Mmg.Arg.C98_verbose_observed`, `Mmg.Bdry.C106_all_triangles`, `Mmg.Bdry.C106_both`, `Mmg.Bdry.C106_faces`, `Mmg.Bdry.C106_prism_observed`, `Mmg.Bdry.C106_tet_partial`, `Mmg.Bdry.C78_last`, `Mmg.Bdry.C78_new`, `Mmg.Bdry.C78_number`, `Mmg.Bdry.C78_open`, `Mmg.Bdry.C78_perm`, `Mmg.Bdry.C78_points`, `Mmg.Bdry.C78_triangles`, `Mmg.Bdry.C79_classic`, `Mmg.Bdry.C79_open`, `Mmg.Bdry.C79_refs`, `Mmg.Bdry.C79_refs_open`, `Mmg.Bdry.C79_user`, `Mmg.Bdry.C79_user_open`, `Mmg.Bdry.Ex.C78_points_iso_observed`, `Mmg.Bdry.Ex.C78_ref2_observed`, `Mmg.Bdry.Ex.C79_lost_observed`, `Mmg.Bdry.Ex.C79_noside_observed`, `Mmg.Boule3.C62_ball`, `Mmg.Boule3.C62_no_ball`, `Mmg.Boule3.C62_rounds`, `Mmg.Cavity.C65_boundary`, `Mmg.Cavity.C65_insert`, `Mmg.Cavity.C65_insert_boundary`, `Mmg.Cavity.C65_maximal`, `Mmg.Cavity.C65_reference`, `Mmg.Cavity.C65_refused`, `Mmg.Cavity.C65_set`, `Mmg.Cavity.C65_surface`, `Mmg.Cavity.C65_total`, `Mmg.Cavity.sound_ani`, `Mmg.Chk.C70_2d_accept`, `Mmg.Chk.C70_2d_severe`, `Mmg.Chk.C70_accept`, `Mmg.Chk.C70_links`, `Mmg.Chk.C70_surface`, `Mmg.Chk.Ex.C70_folded_observed`, `Mmg.Chk.Ex.C70_unlinked_observed`, `Mmg.Colver.C63_data`, `Mmg.Colver.C63_faces`, `Mmg.Colver.C63_mesh`, `Mmg.Colver.C63_safe`, `Mmg.Colver.C63_twins`, `Mmg.Colver.Ex.C63_inner_lost`, `Mmg.Colver.Ex.C63_negative_ref`, `Mmg.Cursor.C23_sequential`, `Mmg.Cursor.C26_static_sweeps_partial`, `Mmg.Cursor.C26_sweeps`, `Mmg.Del2.C91_answers`, `Mmg.Del2.C91_cavity`, `Mmg.Del2.C91_history`, `Mmg.Del2.C91_insert`, `Mmg.Del2.C91_nomem_observed`, `Mmg.Del2.C91_turn`, `Mmg.Delone.C64_links`, `Mmg.Delone.C64_mesh`, `Mmg.Delone.C64_oriented`, `Mmg.Delone.C64_pinched`, `Mmg.Delone.C64_records`, `Mmg.Delone.C64_refused`, `Mmg.Delone.C64_tets`, `Mmg.Delone.C64_total`, `Mmg.Delone.C64_volume`, `Mmg.Edge2.C83_analysis`, `Mmg.Edge2.C83_analysis_quads`, `Mmg.Edge2.C83_consistent`, `Mmg.Edge2.C83_edges`, `Mmg.GEdge.C90_infer`, `Mmg.GEdge.C90_output`, `Mmg.GEdge.C90_table`, `Mmg.GEdge.C90_user`, `Mmg.Grad.C35_edges`, `Mmg.Grad.C35_tetrahedra`, `Mmg.Grad.C35_triangles`, `Mmg.Grad.C53_required`, `Mmg.Grad.C53_vertical_edge_false`, `Mmg.HTri.C07_surface_adjacency`, `Mmg.Hash.C01_edge_table_is_map`, `Mmg.Hash.C01_edge_table_total`, `Mmg.Hash.C02_edge_table_memory_safe`, `Mmg.Hash.C03_face_table_is_map`, `Mmg.Hash.C103_once`, `Mmg.Hash.C103_pop`, `Mmg.Histo.C68_agree`, `Mmg.Histo.C68_average`, `Mmg.Histo.C68_input`, `Mmg.Histo.C68_les_verdict`, `Mmg.Histo.C68_no_row`, `Mmg.Histo.C68_ridge_observed`, `Mmg.Histo.C68_rows`, `Mmg.Histo.C68_stats`, `Mmg.Histo.C68_stats_out`, `Mmg.Histo.C68_verbosity_observed`, `Mmg.Histo.C68_verdict`, `Mmg.Histo.C68_verdict_out`, `Mmg.Histo.C68_worst`, `Mmg.Io.C73_again_ascii`, `Mmg.Io.C73_again_binary`, `Mmg.Io.C73_ascii`, `Mmg.Io.C73_binary`, `Mmg.Io.C73_no_tetra`, `Mmg.Io.C73_numbers`, `Mmg.Io.C73_stale`, `Mmg.Io.Ex.C73_isolated_observed`, `Mmg.Io.Ex.C73_parallel_observed`, `Mmg.Io.Ex.C73_quad_observed`, `Mmg.Iso.C30_edges_partial`, `Mmg.Iso.C30_triangles_kept_partial`, `Mmg.Iso.C30_triangles_last_partial`, `Mmg.Iso.C30_triangles_partial`, `Mmg.Lag.C93_array`, `Mmg.Lag.C93_array_observed`, `Mmg.Lag.C93_extend`, `Mmg.Lag.C93_fraction`, `Mmg.Lag.C93_given`, `Mmg.Lag.C93_hull`, `Mmg.Lag.C93_largest`, `Mmg.Lag.C93_middle`, `Mmg.Lag.C93_motion`, `Mmg.Lag.C93_nosource_observed`, `Mmg.Lag.C93_volume`, `Mmg.LenRep.C102_mean_observed`, `Mmg.LenRep.C102_once`, `Mmg.LenRep.C102_plane_partial`, `Mmg.LenRep.C102_total`, `Mmg.LenRep.C108_covered_partial`, `Mmg.LenRep.C108_first`, `Mmg.LenRep.C108_quality`, `Mmg.LinAlg.C36_congruence`, `Mmg.LinAlg.C36_inverse_2x2`, `Mmg.LinAlg.C36_inverse_3x3_2d`, `Mmg.LinAlg.C36_inverse_3x3_general`, `Mmg.LinAlg.C36_inverse_3x3_sym_false`, `Mmg.LinAlg.C36_inverse_3x3_sym_inf`, `Mmg.LinAlg.C36_inverse_3x3_sym_partial`, `Mmg.LinAlg.C36_product`, `Mmg.LinAlg.C36_solver`, `Mmg.LinAlg.C43_rotation`, `Mmg.LocPar.C101_edge`, `Mmg.LocPar.C101_order`, `Mmg.LocPar.C101_plane_hausd`, `Mmg.LocPar.C101_plane_partial`, `Mmg.LocPar.C101_regular`, `Mmg.LocPar.C101_swap_partial`, `Mmg.Ls2.C75_area`, `Mmg.Ls2.C75_conform`, `Mmg.Ls2.C75_front_points`, `Mmg.Ls2.C75_interface`, `Mmg.Ls2.C75_point_refs`, `Mmg.Ls2.C75_points`, `Mmg.Ls2.C75_refs`, `Mmg.Ls2.C75_restart`, `Mmg.Ls2.C75_sides`, `Mmg.Ls2.C75_snap`, `Mmg.Ls2.Ex.C75_flat_observed`, `Mmg.Ls2.Ex.C75_inner_unsplit_observed`, `Mmg.Ls2.Ex.C75_lone_observed`, `Mmg.Ls2.Ex.C75_only_unsplit_observed`, `Mmg.Ls3.C74_conform_partial`, `Mmg.Ls3.C74_data`, `Mmg.Ls3.C74_interface`, `Mmg.Ls3.C74_points`, `Mmg.Ls3.C74_refs`, `Mmg.Ls3.C74_restart`, `Mmg.Ls3.C74_sides`, `Mmg.Ls3.C74_snap`, `Mmg.Ls3.C74_volume`, `Mmg.Ls3.Ex.C74_hanging_observed`, `Mmg.Ls3.Ex.C74_memory_observed`, `Mmg.Ls3.Ex.C74_memory_points_observed`, `Mmg.Ls3.Ex.C74_only_unsplit_observed`, `Mmg.Mani.C77_closed`, `Mmg.Mani.C77_closed_keep`, `Mmg.Mani.C77_mesh`, `Mmg.Mani.C77_open`, `Mmg.Mani.C77_open_keep`, `Mmg.Mat.C21_inverse_map`, `Mmg.Mat.C21_set_material`, `Mmg.Mat.C22_is_level_set`, `Mmg.Mat.C22_is_not_split_inverted_partial`, `Mmg.Mat.C22_is_split`, `Mmg.Mean.C104_between`, `Mmg.Mean.C104_mean_observed`, `Mmg.Mean.C104_uniform`, `Mmg.Mem.C18_memory_accounting`, `Mmg.Met2.C81_covers`, `Mmg.Met2.C81_covers_all`, `Mmg.Met2.C81_hmax`, `Mmg.Met2.C81_hmin_observed`, `Mmg.Met2.C81_metric`, `Mmg.Met2.C81_reduction`, `Mmg.Met2.C81_succeeds`, `Mmg.Met2.C82_between`, `Mmg.Met2.C82_endpoint_observed`, `Mmg.Met2.C82_iso`, `Mmg.Met2.C82_range`, `Mmg.Met2.C82_range_all`, `Mmg.Met2.C82_sizes`, `Mmg.Move.C69_collapse`, `Mmg.Move.C69_collapse_test`, `Mmg.Move.C69_history`, `Mmg.Move.C69_hull`, `Mmg.Move.C69_iso`, `Mmg.Move.C69_move`, `Mmg.Move.C69_quality`, `Mmg.Move.C69_valid`, `Mmg.Move.C69_worst`, `Mmg.Move.Ex.C69_octree_observed`, `Mmg.Name.C38_extension`, `Mmg.Name.C38_format`, `Mmg.Name.C38_format_of_name`, `Mmg.Name.C38_hidden_file_false`, `Mmg.Name.C38_path`, `Mmg.Name.C38_remove_default_partial`, `Mmg.Name.C38_remove_false`, `Mmg.Name.C38_remove_partial`, `Mmg.NonBdy.C96_edges`, `Mmg.NonBdy.C96_faces`, `Mmg.NonBdy.C96_kind2`, `Mmg.NonBdy.C96_list`, `Mmg.NonBdy.C96_number`, `Mmg.NonBdy.C96_poly_observed`, `Mmg.Oct.C19_octree_history`, `Mmg.Oct.C20_filter_generic`, `Mmg.Oct.C20_filter_midplane`, `Mmg.Oct.C20_filter_off_midplane`, `Mmg.Oct.C20_filter_overfull`, `Mmg.Oct.C20_filter_partial`, `Mmg.Oct.C20_search_complete_partial`, `Mmg.Oct.C20_search_generic`, `Mmg.Oct.C57_move_partial`, `Mmg.Oct.C57_move_then_delete`, `Mmg.Oct.C57_same_code`, `Mmg.Orient.C80_after_C07`, `Mmg.Orient.C80_ends`, `Mmg.Orient.C80_error_only_if_not_orientable`, `Mmg.Orient.C80_moebius_accepted_observed`, `Mmg.Orient.C80_oriented`, `Mmg.Orient.C80_oriented_unchanged`, `Mmg.Orient.C80_required_vertices`, `Mmg.Orient.C80_same_surface`, `Mmg.Over.C66_collapse`, `Mmg.Over.C66_history`, `Mmg.Over.C66_insert`, `Mmg.Over.C66_move`, `Mmg.Over.C66_oriented`, `Mmg.Over.C66_swap`, `Mmg.Over.Ex.C66_boundary_needed`, `Mmg.Pack2.C12_pack_consistent`, `Mmg.Pack2.C12_second_count_stale`, `Mmg.Pack2.C56_edge_table`, `Mmg.Pack2.C56_once_partial`, `Mmg.Pack2.C56_required_twice`, `Mmg.Pack3.C11_pack_consistent`, `Mmg.Pack3.C54_last_normal_missing`, `Mmg.Pack3.C54_normals_partial`, `Mmg.Pack3.C55_free_list_partial`, `Mmg.Par.C28_acceptance`, `Mmg.Par.C28_full_table_frozen`, `Mmg.Par.C28_last_value_wins`, `Mmg.ParFile.C99_cut_observed`, `Mmg.ParFile.C99_last_observed`, `Mmg.ParFile.C99_list`, `Mmg.ParFile.C99_many_observed`, `Mmg.ParFile.C99_negative`, `Mmg.ParFile.C99_negative_observed`, `Mmg.ParFile.C99_reads`, `Mmg.ParFile.C99_roundtrip`, `Mmg.ParFile.C99_stale_observed`, `Mmg.ParFile.C99_table`, `Mmg.ParFile.C99_unset_observed`, `Mmg.ParS.C100_file_safe`, `Mmg.ParS.C100_line_observed`, `Mmg.ParS.C100_overflow`, `Mmg.ParS.C100_overflow_observed`, `Mmg.ParS.C100_reads`, `Mmg.ParS.C100_roundtrip`, `Mmg.ParS.C100_short_observed`, `Mmg.ParS.C100_values`, `Mmg.ParS.C100_word_observed`, `Mmg.Param.C71_2d_sizes`, `Mmg.Param.C71_angle`, `Mmg.Param.C71_base`, `Mmg.Param.C71_base_partial`, `Mmg.Param.C71_frame`, `Mmg.Param.C71_frame_real`, `Mmg.Param.C71_gradation`, `Mmg.Param.C71_history`, `Mmg.Param.C71_not_taken`, `Mmg.Param.C71_real_bounds`, `Mmg.Param.C71_refused`, `Mmg.Param.C71_set_get`, `Mmg.Param.Ex.C71_2d_refused_observed`, `Mmg.Param.Ex.C71_3d_sizes_observed`, `Mmg.Param.Ex.C71_angle_observed`, `Mmg.Param.Ex.C71_base_observed`, `Mmg.Param.Ex.C71_mem_observed`, `Mmg.Param.Ex.C71_null_observed`, `Mmg.Param.Ex.C71_surface_iso_observed`, `Mmg.Param.Ex.C71_unreadable_observed`, `Mmg.Param.Ex.C71_wrap_observed`, `Mmg.Param.Ex.C71_xreg_observed`, `Mmg.Pool.C08_count_is_highest_used`, `Mmg.Pool.C08_point_slots`, `Mmg.Pool.C09_element_slots`, `Mmg.Pool.C10_pack_keeps_elements`, `Mmg.Pool.C10_reachable_pools_can_be_packed`, `Mmg.Qual.C67_ani_indefinite`, `Mmg.Qual.C67_ani_iso`, `Mmg.Qual.C67_ani_one`, `Mmg.Qual.C67_ani_range`, `Mmg.Qual.C67_constant`, `Mmg.Qual.C67_iso_one`, `Mmg.Qual.C67_iso_order`, `Mmg.Qual.C67_iso_range`, `Mmg.Qual.C67_iso_shape`, `Mmg.Qual.C67_iso_valid`, `Mmg.Qual.C67_iso_zero`, `Mmg.Qual.C67_mean`, `Mmg.Qual.C67_tri_ani`, `Mmg.Qual.C67_tri_constant`, `Mmg.Qual.C67_tri_iso`, `Mmg.Qual.C67_volume`, `Mmg.Renum.C88_free`, `Mmg.Renum.C88_no_memory`, `Mmg.Renum.C88_same`, `Mmg.Req2.C95_ready`, `Mmg.Req2.C95_required`, `Mmg.Req2.C95_user`, `Mmg.ReqS.C97_ready`, `Mmg.ReqS.C97_required`, `Mmg.ReqS.C97_user`, `Mmg.Ridge.C87_agree`, `Mmg.Ridge.C87_edges`, `Mmg.Ridge.C87_ends`, `Mmg.Ridge.C87_mmgs`, `Mmg.Ridge.C87_other_edges`, `Mmg.Ridge.C87_singular`, `Mmg.Ridge.C87_vertex_lost_observed`, `Mmg.Ridge.C87_vertices`, `Mmg.Ridge.C87_words`, `Mmg.Rmc.C76_area`, `Mmg.Rmc.C76_area_sum`, `Mmg.Rmc.C76_exists`, `Mmg.Rmc.C76_left`, `Mmg.Rmc.C76_negative`, `Mmg.Rmc.C76_phase`, `Mmg.Rmc.C76_rmc`, `Mmg.Rmc.C76_tetra`, `Mmg.Rmc.C76_tria`, `Mmg.Rmc.C76_volume`, `Mmg.Rmc.C76_volume_sum`, `Mmg.Rmc.C76_zero`, `Mmg.Rmc.Ex.C76_projected_observed`, `Mmg.Rmc.Ex.C76_small_positive_observed`, `Mmg.Scale.C31_failure_leaves_scaled`, `Mmg.Scale.C31_restored`, `Mmg.Scale.C31_scalar_metric`, `Mmg.Scale.C31_unit_box`, `Mmg.Scale.C31_unscale_twice`, `Mmg.Scale.C31_unused_not_restored`, `Mmg.Scale.C32_never_again`, `Mmg.Scale.C32_rejected_partial`, `Mmg.Scale.C32_second_accepted_false`, `Mmg.Scale.C32_valid_accepted`, `Mmg.Scale.C33_contradictory_false`, `Mmg.Scale.C33_truncated_partial`, `Mmg.Scale.C34_constant_size`, `Mmg.Scale.C34_default_bounds`, `Mmg.Scale.C34_zero_bound`, `Mmg.Scale.C52_size_two_false`, `Mmg.Scale.C52_truncated`, `Mmg.Scale.truncAni3_frame`, `Mmg.Shell.C59_no_shell`, `Mmg.Shell.C59_shell`, `Mmg.Shell.C60_deltag`, `Mmg.Shell.C60_settag`, `Mmg.Shell.C60_settag_agree`, `Mmg.Shell.C61_get`, `Mmg.Shell.C61_get_agree`, `Mmg.Shell.C61_srcbdy`, `Mmg.Shell.C61_update_partial`, `Mmg.Shell.Ex.C59_start_required`, `Mmg.Sol.C27_get_ith_wraps`, `Mmg.Sol.C27_histories_run`, `Mmg.Sol.C27_last_position_refused`, `Mmg.Sol.C27_round_trip`, `Mmg.Sol.C27_set_ith_ignores_refusal`, `Mmg.Sol.C27_setting`, `Mmg.SolIo.C92_all`, `Mmg.SolIo.C92_binary_observed`, `Mmg.SolIo.C92_binary_partial`, `Mmg.SolIo.C92_cells_observed`, `Mmg.SolIo.C92_gmsh_observed`, `Mmg.SolIo.C92_name`, `Mmg.SolIo.C92_name_observed`, `Mmg.SolIo.C92_nokeyword_observed`, `Mmg.SolIo.C92_one`, `Mmg.SolIo.C92_open_observed`, `Mmg.SolIo.C92_stale_observed`, `Mmg.Sort.C37_permute`, `Mmg.Sort.C37_sort`, `Mmg.Sort.C37_sort_and_permute`, `Mmg.Spl1b.C85_boundary`, `Mmg.Spl1b.C85_edges`, `Mmg.Spl1b.C85_faces`, `Mmg.Spl1b.C85_good`, `Mmg.Spl1b.C85_history`, `Mmg.Spl1b.C85_mesh`, `Mmg.Spl1b.C85_shell`, `Mmg.Spl1b.C85_succeeds`, `Mmg.Spl1b.C85_volume`, `Mmg.Split3.dichoto_moves`, `Mmg.Split3.dichoto_succeeds`, `Mmg.Split3.dichoto_valid`, `Mmg.Split3.halves_share_one_face`, `Mmg.Split3.sim_iff`, `Mmg.Split3.split1_halves`, `Mmg.Split3.split1_two_halves`, `Mmg.Split3.split3op_ori_wrong`, `Mmg.Split3.split6_tags_partial`, `Mmg.Split3.split6_tags_wrong`, `Mmg.Split3.splitAll_conforming`, `Mmg.Split3.splitAll_skips_one_side`, `Mmg.Split3.splitAll_volume`, `Mmg.Split3.splitOne_faces`, `Mmg.Split3.split_faces`, `Mmg.Split3.split_inherits_partial`, `Mmg.Split3.split_total`, `Mmg.Split3.split_volume_nonneg`, `Mmg.Split3.split_volume_pos`, `Mmg.Split3.split_volume_sum`, `Mmg.Split3.star_adjacency`, `Mmg.Split3.star_faces`, `Mmg.Split3.star_volume`, `Mmg.Sub.C39_kept_elements`, `Mmg.Sub.C40_valid_vertices`, `Mmg.Subd.C89_nsd_links_observed`, `Mmg.Subd.C89_nsd_partial`, `Mmg.Subd.C89_outside`, `Mmg.Subd.C89_regions`, `Mmg.Surf.C94_collapse`, `Mmg.Surf.C94_split`, `Mmg.Surf.C94_split_all`, `Mmg.Surf.C94_split_border`, `Mmg.Surf.C94_split_failure_observed`, `Mmg.Surf.C94_swap`, `Mmg.Surf.C94_swap_existing_edge_observed`, `Mmg.Surf.C94_two_triangles_test_observed`, `Mmg.Swap23.C58_orientation_lost`, `Mmg.Swap23.C58_swap_data_partial`, `Mmg.Swap23.C58_swap_mesh`, `Mmg.Swpg.C86_edge_gone`, `Mmg.Swpg.C86_fem`, `Mmg.Swpg.C86_history`, `Mmg.Swpg.C86_lost`, `Mmg.Swpg.C86_no_locked_tetra`, `Mmg.Swpg.C86_safe`, `Mmg.Swpg.C86_swap`, `Mmg.Tri2.C105_failure`, `Mmg.Tri2.C105_joined_partial`, `Mmg.Tri2.C105_neighbours`, `Mmg.Tri2.C105_once`, `Mmg.Tri2.C13_split_boundary_edge`, `Mmg.Tri2.C13_split_interior_edge`, `Mmg.Tri2.C14_swap`, `Mmg.Tri2.C15_split_triangle_partial`, `Mmg.Tri2.C15_tags_misplaced`, `Mmg.Tri2.C16_area_conserved`, `Mmg.Tri2.C16_area_with_collapse`, `Mmg.Tri2.C16_circulation_is_boundary`, `Mmg.Tri2.C16_histories`, `Mmg.Tri2.C16_histories_with_collapse`, `Mmg.Tri2.C17_ball`, `Mmg.Tri2.C17_ball_failure`, `Mmg.Tri2.C44_neighbours_partial`, `Mmg.Tri2.C45_collapse2_partial`, `Mmg.Tri2.C45_collapse3`, `Mmg.Tri2.C45_collapse_boundary`, `Mmg.Tri2.C45_collapse_interior`, `Mmg.Tri2.C45_two_triangles_tag_false`, `Mmg.UEdge.C84_assign`, `Mmg.UEdge.C84_duplicate_observed`, `Mmg.UEdge.C84_required_side_dropped_observed`, `Mmg.UEdge.C84_round_trip`

* **propext, Quot.sound** (66 theorems): `Mmg.Add.C109_order_observed`, `Mmg.Add.C109_sweep_partial`, `Mmg.Api.C23_beyond_size_refused`, `Mmg.Api.C23_out_of_range`, `Mmg.Api.C23_position_zero_accepted`, `Mmg.Boule3.Ex.C62_touching`, `Mmg.Cavity.C65_marks`, `Mmg.Cavity.sound_iso`, `Mmg.Chk.C70_inside`, `Mmg.Cursor.C26_prisms_stuck_false`, `Mmg.Edge2.C83_required_edge_order_observed`, `Mmg.Edge2.C83_required_vertex_kept_observed`, `Mmg.Edge2.C83_required_vertex_lost_observed`, `Mmg.Edge2.C83_square`, `Mmg.GEdge.C90_duplicate_observed`, `Mmg.GEdge.C90_one_sided_observed`, `Mmg.GEdge.C90_six_edges`, `Mmg.HTri.C07_duplicate_kept`, `Mmg.HTri.C07_duplicate_marks_regular_edge`, `Mmg.HTri.C07_duplicate_takes_link`, `Mmg.Iso.C30_false`, `Mmg.Iso.lastKept_exists`, `Mmg.Lag.C93_marks_observed`, `Mmg.Lag.C93_noroom_observed`, `Mmg.Lag.C93_sides`, `Mmg.LenRep.C102_column_observed`, `Mmg.LenRep.C102_columns`, `Mmg.LenRep.C102_columns_plane_partial`, `Mmg.LenRep.C102_numbers`, `Mmg.LenRep.C102_plane_observed`, `Mmg.LenRep.C102_surface_observed`, `Mmg.LenRep.C108_all_observed`, `Mmg.LenRep.C108_check`, `Mmg.LenRep.C108_sound`, `Mmg.LenRep.C108_storage_observed`, `Mmg.Limit.C72_lower_partial`, `Mmg.Limit.C72_memory`, `Mmg.Limit.C72_pack`, `Mmg.Limit.C72_room`, `Mmg.Limit.C72_set_size`, `Mmg.Mani.Ex.C77_dangling_observed`, `Mmg.Mani.Ex.C77_mirror_observed`, `Mmg.Mat.C21_replaced_attribute_unchecked`, `Mmg.Mean.C104_order`, `Mmg.Mean.C104_weighted`, `Mmg.Move.C69_octree`, `Mmg.NonBdy.C96_index_observed`, `Mmg.NonBdy.C96_kind3`, `Mmg.NonBdy.C96_lost_observed`, `Mmg.NonBdy.C96_twice_observed`, `Mmg.NonBdy.C96_uncounted_observed`, `Mmg.Oct.C57_move_ignored`, `Mmg.Orient.C80_left_out`, `Mmg.Pack2.C56_first_triangle_twice`, `Mmg.Pack2.C56_quad_edge_lookup`, `Mmg.Pack3.C11_no_used_point`, `Mmg.Pack3.C55_free_list_false`, `Mmg.Pool.C08_failed_boundary_creation_leaks`, `Mmg.Pool.C08_full_allocation_overflows`, `Mmg.Renum.C88_failed_partition_observed`, `Mmg.ReqS.C97_uneven_observed`, `Mmg.Shell.Ex.C61_get_ref_lost`, `Mmg.SolIo.C92_binary_pos_observed`, `Mmg.Split3.half_volumes`, `Mmg.Split3.star_inherits`, `Mmg.UEdge.C84_quad_sides`

* **propext** (26 theorems): `Mmg.Arg.C98_names`, `Mmg.Chk.Ex.C70_2d_pinch_observed`, `Mmg.Chk.Ex.C70_2d_ref0_observed`, `Mmg.Chk.Ex.C70_2d_vertices_observed`, `Mmg.Chk.Ex.C70_negative_observed`, `Mmg.Chk.Ex.C70_surface_open_observed`, `Mmg.Cursor.C26_prisms_interleaved_false`, `Mmg.Cursor.C26_prisms_resized_false`, `Mmg.Hash.C02_hypothesis_needed`, `Mmg.Io.Ex.C73_binary_stale_observed`, `Mmg.Io.Ex.C73_tangent_observed`, `Mmg.LocPar.C101_cross_observed`, `Mmg.LocPar.C101_forget_observed`, `Mmg.LocPar.C101_plane_observed`, `Mmg.LocPar.C101_repair_observed`, `Mmg.LocPar.C101_swap_observed`, `Mmg.Mat.C21_later_reference_out_of_bounds`, `Mmg.Req2.C95_both_sides_needed_observed`, `Mmg.Req2.C95_ends_needed_observed`, `Mmg.ReqS.C97_even`, `Mmg.Shell.Ex.C61_update_stops`, `Mmg.SolIo.C92_binary_wrong_observed`, `Mmg.Sub.C39_no_choice`, `Mmg.Surf.C94_swap_refused`, `Mmg.Tri2.C105_touching_observed`, `Mmg.Tri2.C44_open_fan_false`

* **no axiom** (12 theorems): `Mmg.Iso.C30_edges_false`, `Mmg.Lag.C93_largest_observed`, `Mmg.Limit.Ex.C72_physical_observed`, `Mmg.Limit.Ex.C72_raise_observed`, `Mmg.Limit.Ex.C72_refused_observed`, `Mmg.Limit.Ex.C72_same_value_observed`, `Mmg.Mat.C21_full_table_frozen`, `Mmg.Mat.C22_is_not_split_false`, `Mmg.Mem.C18_refusal_drifts`, `Mmg.Mem.C18_wraparound`, `Mmg.Pack3.C11_unused_prism_counted`, `Mmg.Pool.C08_double_delete_corrupts`

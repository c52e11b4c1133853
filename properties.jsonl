{"id": "C01", "title": "The edge hash table is a finite map on unordered vertex pairs", "statement": "Starting from a freshly created edge table, after any sequence of successful insertions, value updates and tag insertions, looking up an edge {a,b} returns exactly the value a mathematical finite map on unordered pairs would hold: an insertion of an already present edge changes nothing and reports 'already listed', an insertion of an absent edge reports 'new' and stores the value, an update changes exactly that edge and fails iff the edge is absent, a tag insertion ORs the tag into the stored value, and lookup of an absent edge gives 0. The order of the two endpoints never matters.", "quantifier": "all table sizes, all finite sequences of insert/update/tag/lookup calls, all positive vertex indices, all growth amounts granted by the allocator", "why_tests_cant": "Collision chains, overflow cells and reallocations interact over unbounded histories; a test only exercises some key collisions and some reallocation points.", "anchors": ["src/common/hash.c:MMG5_hashNew", "src/common/hash.c:MMG5_hashEdge", "src/common/hash.c:MMG5_hashUpdate", "src/common/hash.c:MMG5_hashEdgeTag", "src/common/hash.c:MMG5_hashGet"]}
{"id": "C02", "title": "The edge hash table never touches memory outside its allocation and lookups terminate", "statement": "Under the same histories, each of the table operations reads and writes only cells of the currently allocated array, and every chain walk ends (no cycle is ever created in a bucket), provided the table was created with an overflow area that is not smaller than the bucket area.", "quantifier": "all table sizes with hmax>=hsiz, all operation histories, all keys, all allocator answers", "why_tests_cant": "Out-of-bounds accesses and cyclic chains depend on exact boundary coincidences between the free cell index and the capacity.", "anchors": ["src/common/hash.c:MMG5_hashNew", "src/common/hash.c:MMG5_hashEdge", "src/common/hash.c:MMG5_hashEdgeTag", "src/common/mmgcommon_private.h:MMG5_TAB_RECALLOC"]}
{"id": "C03", "title": "The face hash table identifies faces exactly by their vertex set", "statement": "Inserting face {a,b,c} with index k into a face table answers 'new' the first time and afterwards returns the index given at first insertion, for any ordering of the three vertices; two faces with different vertex multisets are never identified although only minimum, maximum and sum are stored; lookup returns the first index or 0 if the face was never inserted.", "quantifier": "all histories of face insertions, all vertex triples, all orders of the three vertices, all table sizes", "why_tests_cant": "Confusion between faces would show up only for specific index coincidences in large meshes.", "anchors": ["src/common/hash.c:MMG5_hashFace", "src/mmg3d/hash_3d.c:MMG5_hashGetFace"]}
{"id": "C04", "title": "Tetrahedral adjacency is symmetric and joins elements that really share a face", "statement": "After building the adjacency table of a packed tetrahedral mesh, whenever face i of element k is linked to face i' of element k', then face i' of k' is linked back to face i of k, both faces have the same three vertices, the two (element, face) pairs are different, and both elements exist.", "quantifier": "all packed tetrahedral meshes (any connectivity, including non-manifold faces) with any number of elements", "why_tests_cant": "The in-place chained algorithm re-uses the output array as hash links; any missed relinking shows only for particular collision orders.", "anchors": ["src/mmg3d/hash_3d.c:MMG3D_hashTetra"]}
{"id": "C05", "title": "Tetrahedral adjacency misses no shared face", "statement": "If every triangular face is shared by at most two elements, then face i of element k is left without neighbour if and only if no other (element, face) pair has the same three vertices.", "quantifier": "all packed tetrahedral meshes in which each face is used at most twice", "why_tests_cant": "A missed neighbour needs a particular order of colliding keys inside one bucket.", "anchors": ["src/mmg3d/hash_3d.c:MMG3D_hashTetra"]}
{"id": "C06", "title": "2D triangle adjacency is symmetric, geometrically right, and complete", "statement": "After building 2D adjacency, linked edges have the same two end points, links are mutual, never link an edge to itself, and, when each edge is shared by at most two triangles, an edge is unlinked iff it belongs to a single triangle; deleted (unused) triangles are never linked.", "quantifier": "all 2D meshes with any number of triangles, with unused slots anywhere", "why_tests_cant": "Same in-place chained algorithm, plus holes in the element array.", "anchors": ["src/mmg2d/hash_2d.c:MMG2D_hashTria"]}
{"id": "C07", "title": "Surface adjacency marks exactly the multiply shared edges as non-manifold", "statement": "When adjacency of a surface triangulation without repeated triangles is built, mutually linked edges have the same end points and belong to different triangles; an edge of one triangle is not linked; an edge shared by exactly two triangles is linked both ways and not marked; an edge shared by three or more triangles is marked non-manifold in all of them, with exactly one linked pair; points are marked accordingly and every other tag is unchanged. A repeated triangle should not change this for the remaining ones (it does, see findings).", "quantifier": "all triangulations, any edge multiplicity, any ordering of triangles, any allocator answers", "why_tests_cant": "Depends on the order in which three or more triangles meet in the same bucket.", "anchors": ["src/common/hash.c:MMG5_mmgHashTria"]}
{"id": "C08", "title": "Point slots are allocated at most once (3D)", "statement": "For any history of point creations and deletions, a creation returns a slot that is not in use, never returns the same slot twice without a deletion in between, succeeds as long as the free list is not exhausted, and the reported number of points always bounds every used slot; a deleted slot becomes available again.", "quantifier": "all histories of newPt/delPt on any capacity", "why_tests_cant": "Needs an invariant over unbounded alloc/free histories including LIFO reuse and shrinking of the high-water mark.", "anchors": ["src/mmg3d/zaldy_3d.c:MMG3D_newPt", "src/mmg3d/zaldy_3d.c:MMG3D_delPt", "src/mmg3d/zaldy_3d.c:MMG3D_setMeshSize_alloc"]}
{"id": "C09", "title": "Element slots are allocated at most once (3D and 2D)", "statement": "For any history of element creations (followed by filling with positive vertices) and deletions, creation never returns a slot in use, deleting an unused element is refused and changes nothing, the element count is the highest used slot after deletions, and used + free slots are conserved.", "quantifier": "all histories of newElt/delElt in 3D and 2D on any capacity", "why_tests_cant": "Unbounded allocation histories.", "anchors": ["src/mmg3d/zaldy_3d.c:MMG3D_newElt", "src/mmg3d/zaldy_3d.c:MMG3D_delElt", "src/mmg2d/zaldy_2d.c:MMG2D_newElt", "src/mmg2d/zaldy_2d.c:MMG2D_delElt"]}
{"id": "C10", "title": "Packing tetrahedra loses and duplicates nothing", "statement": "Packing a tetrahedra array with holes yields an array whose first ne slots are all valid, containing exactly the same multiset of elements as before, with a free list made of exactly the remaining slots.", "quantifier": "all arrays with any pattern of holes, provided the last counted element is valid", "why_tests_cant": "Hole patterns are unbounded; off-by-one in the do/while loop bound only matters for specific patterns.", "anchors": ["src/mmg3d/hash_3d.c:MMG5_paktet"]}
{"id": "C11", "title": "Final 3D packing is a consistent renumbering", "statement": "Packing the 3D mesh for output maps used points bijectively onto 1..np', rewrites every element vertex through that same map, moves coordinates and solution values to the same new index, keeps every valid element exactly once, and keeps the adjacency table describing the same pairs of elements.", "quantifier": "all meshes with any pattern of unused points and elements (at least one used point)", "why_tests_cant": "The point, solution and numbering loops are three separately coded in-place compactions that must agree on all hole patterns.", "anchors": ["src/mmg3d/libmmg3d.c:MMG3D_mark_packedPoints", "src/mmg3d/libmmg3d.c:MMG3D_pack_sol", "src/mmg3d/libmmg3d.c:MMG3D_pack_pointArray", "src/mmg3d/libmmg3d.c:MMG3D_update_eltsVertices", "src/mmg3d/libmmg3d.c:MMG3D_pack_tetraAndAdja"]}
{"id": "C12", "title": "Final 2D packing is an order-preserving renumbering", "statement": "Packing the 2D mesh renumbers used points order-preservingly onto 1..np', moves coordinates and solution values accordingly, renumbers triangles order-preservingly and rewrites adjacency and vertices through those maps.", "quantifier": "all 2D meshes with any pattern of unused points and triangles", "why_tests_cant": "Same as C11; the hole patterns are unbounded.", "anchors": ["src/mmg2d/hash_2d.c:MMG2D_pack"]}
{"id": "C13", "title": "2D edge splitting keeps a conforming triangulation", "statement": "Splitting an edge of a 2D mesh at a new vertex replaces each triangle on the edge by two triangles that partition it (same orientation, areas adding up, same reference), keeps neighbour links symmetric and edge-matching, keeps edge tags on the half edges and creates untagged interior edges; all other triangles are untouched.", "quantifier": "all meshes with symmetric adjacency, any edge (boundary or interior), any new vertex", "why_tests_cant": "The relinking touches up to six triangles in configurations whose number is unbounded when elements are neighbours of each other in several ways.", "anchors": ["src/mmg2d/split_2d.c:MMG2D_split1b"]}
{"id": "C14", "title": "2D edge swapping keeps a conforming triangulation", "statement": "Swapping an edge of a 2D mesh replaces the two triangles by the two triangles on the other diagonal of the same quadrilateral: total signed area and boundary edges with their tags are preserved, neighbour links stay symmetric and edge-matching, other triangles are untouched, and tagged (ridge, reference, required, boundary) edges are never swapped.", "quantifier": "all meshes with symmetric adjacency and any interior untagged edge", "why_tests_cant": "Configuration space is unbounded (neighbouring triangles may coincide).", "anchors": ["src/mmg2d/swapar_2d.c:MMG2D_swapar"]}
{"id": "C15", "title": "Splitting a 2D triangle at an interior point keeps a conforming triangulation", "statement": "Splitting a triangle at an interior point yields three triangles partitioning it, with symmetric edge-matching adjacency, the outer edges keeping their tags and references, and the inner edges untagged.", "quantifier": "all meshes with symmetric adjacency, any triangle, any new point", "why_tests_cant": "Tag transport is only visible when the outer edges carry tags.", "anchors": ["src/mmg2d/split_2d.c:MMG2D_splitbar"]}
{"id": "C16", "title": "2D refinement and swapping histories preserve mesh validity", "statement": "Starting from any 2D mesh with symmetric, edge-matching adjacency, any sequence of edge splits, edge swaps and interior-point splits keeps symmetric, edge-matching adjacency, conserves the total signed area of the domain, and conserves its boundary.", "quantifier": "all finite sequences of operators at arbitrary places of arbitrary meshes", "why_tests_cant": "Histories are unbounded.", "anchors": ["src/mmg2d/split_2d.c:MMG2D_split1b", "src/mmg2d/swapar_2d.c:MMG2D_swapar", "src/mmg2d/split_2d.c:MMG2D_splitbar", "src/mmg2d/zaldy_2d.c:MMG2D_newElt"]}
{"id": "C17", "title": "The ball of a surface vertex is enumerated exactly once", "statement": "Enumerating the triangles around a vertex through adjacency returns only triangles containing that vertex at the announced local position, without repetition, and, if the umbrella is closed or bounded by two open edges, returns all triangles of the connected fan.", "quantifier": "all triangulations with symmetric, edge-matching adjacency and consistent orientation; all vertices", "why_tests_cant": "Depends on arbitrary valence and on where the enumeration starts relative to the boundary.", "anchors": ["src/common/boulep.c:MMG5_boulet", "src/mmg2d/boulep_2d.c:MMG2D_boulep"]}
{"id": "C18", "title": "Memory accounting never exceeds the authorised maximum and never underflows", "statement": "For any history of accounted allocations, re-allocations and releases, the current-memory counter equals the sum of the sizes of the live blocks, never exceeds the authorised maximum after a successful operation, a refused operation leaves the counter unchanged, and no release underflows it.", "quantifier": "all histories of allocations, table growths (including growth shrunk to fit the limit) and releases, all limits", "why_tests_cant": "Accounting drifts only over long histories and near the limit.", "anchors": ["src/common/mmgcommon_private.h:MMG5_CHK_MEM", "src/common/mmgcommon_private.h:MMG5_ADD_MEM", "src/common/mmgcommon_private.h:MMG5_DEL_MEM", "src/common/mmgcommon_private.h:MMG5_TAB_RECALLOC"]}
{"id": "C19", "title": "The point-region octree stores exactly the inserted points", "statement": "After any sequence of insertions and deletions of vertices at fixed positions, the octree contains exactly the vertices inserted and not deleted, with their multiplicities, every leaf holds at most nv vertices unless maximum depth is reached, and each stored vertex lies in the cell holding it.", "quantifier": "all histories of insertions/deletions, all positions in the unit cube, all nv and depths", "why_tests_cant": "Cell subdivision and merging cascades depend on unbounded insertion histories.", "anchors": ["src/mmg3d/PRoctree_3d.c:MMG3D_addPROctreeRec", "src/mmg3d/PRoctree_3d.c:MMG3D_delPROctreeRec", "src/mmg3d/PRoctree_3d.c:MMG3D_mergeBranchesRec"]}
{"id": "C20", "title": "Octree neighbourhood search returns every stored vertex of the zone", "statement": "The search for a zone (axis-aligned box) that succeeds returns every leaf cell meeting the box, hence every stored vertex in the box; the insertion filter therefore refuses a point that is too close to a stored vertex.", "quantifier": "all octree contents, all boxes inside the unit cube", "why_tests_cant": "Failures occur when the box touches cell mid-planes or when the result list is nearly full; measure-zero configurations for random tests.", "anchors": ["src/mmg3d/PRoctree_3d.c:MMG3D_getListSquareRec", "src/mmg3d/PRoctree_3d.c:MMG3D_intersectRect", "src/mmg3d/PRoctree_3d.c:MMG3D_PROctreein_iso"]}
{"id": "C21", "title": "The multi-material inverse map inverts the user's table", "statement": "If all references of the user's multi-material table are pairwise distinct (a material may share its reference with one of its own children), then each reference present in the table (parent, inside child, outside child) is mapped back to the reference of its parent, and any other reference in range is reported as not found.", "quantifier": "all multi-material tables of any size and all references", "why_tests_cant": "Table sizes and overlapping reference ranges are unbounded.", "anchors": ["src/common/mmg2.c:MMG5_MultiMat_init", "src/common/mmg2.c:MMG5_InvMat_set", "src/common/mmg2.c:MMG5_getStartRef"]}
{"id": "C22", "title": "Split/no-split decisions follow the user's table", "statement": "In multi-material mode a reference is reported as to be split iff it is in the table with the split attribute, with the inside/outside references given by the user; it is reported as not to be split iff it is in the table with the no-split attribute; an edge between two sub-domains is on the level-set iff the two are an inside and an outside child of split materials.", "quantifier": "all tables and all references", "why_tests_cant": "Decision depends on table contents; tests use a couple of tables.", "anchors": ["src/common/mmg2.c:MMG5_isSplit", "src/common/mmg2.c:MMG5_isNotSplit", "src/common/mmg2.c:MMG5_isLevelSet"]}
{"id": "C23", "title": "Vertex API round trip", "statement": "After setting the mesh size and setting vertices in any order (one by one or in block), reading the vertices back sequentially, by index, or in block yields exactly the coordinates and references last written for each position, with corner/required flags reflecting exactly the corner/required calls made.", "quantifier": "all mesh sizes, all sequences of setter calls with positions in range, all values", "why_tests_cant": "Setter calls can be interleaved arbitrarily; the read cursor is hidden state.", "anchors": ["src/mmg3d/API_functions_3d.c:MMG3D_Set_vertex", "src/mmg3d/API_functions_3d.c:MMG3D_Get_vertex", "src/mmg3d/API_functions_3d.c:MMG3D_GetByIdx_vertex", "src/mmg3d/API_functions_3d.c:MMG3D_Set_vertices", "src/mmg3d/API_functions_3d.c:MMG3D_Get_vertices", "src/mmg3d/API_functions_3d.c:MMG3D_Set_corner"]}
{"id": "C24", "title": "Tetrahedron API round trip with orientation repair", "statement": "Setting a tetrahedron stores its four vertices up to an exchange of the last two; the stored element always has non-negative volume, is exchanged iff the given one has negative volume, the number of repaired elements is counted, and degenerate (zero volume) elements are the ones flagged invalid.", "quantifier": "all positions, all vertex coordinates, all sequences of set calls", "why_tests_cant": "Depends on exact sign of the volume for arbitrary coordinates and on the history of earlier set calls on the same slot.", "anchors": ["src/mmg3d/API_functions_3d.c:MMG3D_Set_tetrahedron", "src/mmg3d/API_functions_3d.c:MMG3D_Get_tetrahedron", "src/common/tools.c:MMG5_orvol"]}
{"id": "C25", "title": "Prism, quadrilateral, triangle and edge API round trips", "statement": "Setting prisms, quadrilaterals, triangles and edges (individually or by block) and reading them back (individually or by block) returns the same vertices in the same order and the same references.", "quantifier": "all sizes, positions, vertices and references", "why_tests_cant": "Block getters index flat arrays by hand; a swapped index is invisible on symmetric data.", "anchors": ["src/mmg3d/API_functions_3d.c:MMG3D_Set_prism", "src/mmg3d/API_functions_3d.c:MMG3D_Get_prisms", "src/mmg3d/API_functions_3d.c:MMG3D_Set_quadrilateral", "src/mmg3d/API_functions_3d.c:MMG3D_Set_triangles", "src/mmg3d/API_functions_3d.c:MMG3D_Get_edges"]}
{"id": "C26", "title": "Sequential getters enumerate every entity exactly once per sweep", "statement": "Calling a sequential getter n times from a fresh cursor returns entities 1..n in order and any number of further sweeps of n calls again returns 1..n, whatever other getters are called in between on the same or on another mesh.", "quantifier": "all entity counts, all interleavings of getter calls over one or several meshes", "why_tests_cant": "Cursors are hidden (partly process-global) state; interleavings are unbounded.", "anchors": ["src/mmg3d/API_functions_3d.c:MMG3D_Get_vertex", "src/mmg3d/API_functions_3d.c:MMG3D_Get_prism", "src/mmg3d/API_functions_3d.c:MMG3D_Get_quadrilateral", "src/mmg3d/API_functions_3d.c:MMG3D_Get_edge"]}
{"id": "C27", "title": "Solution API round trip", "statement": "For scalar, vector and tensor solutions, values written at position pos are exactly the values read back at position pos, writes at different positions do not interfere, and out-of-range positions are refused without modifying the solution.", "quantifier": "all solution sizes, positions in range, values and orders of writes", "why_tests_cant": "Flat arrays with stride and offset arithmetic; interference depends on position pairs.", "anchors": ["src/mmg3d/API_functions_3d.c:MMG3D_Set_scalarSol", "src/mmg3d/API_functions_3d.c:MMG3D_Set_vectorSol", "src/mmg3d/API_functions_3d.c:MMG3D_Set_tensorSol", "src/mmg3d/API_functions_3d.c:MMG3D_Set_ithSol_inSolsAtVertices"]}
{"id": "C28", "title": "Local parameters: last value wins", "statement": "After any sequence of accepted local parameter settings, each (entity type, reference) pair has at most one entry and it holds the last accepted values; entries for other pairs are unchanged; settings beyond the announced number are refused.", "quantifier": "all announced sizes, all sequences of calls", "why_tests_cant": "Histories of unbounded length with duplicates near capacity.", "anchors": ["src/mmg3d/API_functions_3d.c:MMG3D_Set_localParameter"]}
{"id": "C29", "title": "Required/corner/ridge flags are independent bits", "statement": "Setting and unsetting required, corner, ridge, parallel and non-manifold flags on an entity changes exactly that flag: after any sequence of set/unset calls each flag equals its last set/unset, and other bits never change.", "quantifier": "all sequences of flag calls, all initial tag values", "why_tests_cant": "Combinations over histories; masks may overlap for some bit patterns only.", "anchors": ["src/mmg3d/API_functions_3d.c:MMG3D_Set_corner", "src/mmg3d/API_functions_3d.c:MMG3D_Unset_corner", "src/mmg3d/API_functions_3d.c:MMG3D_Set_requiredTriangle", "src/mmg3d/API_functions_3d.c:MMG3D_Unset_requiredTriangle", "src/mmg3d/API_functions_3d.c:MMG3D_Set_parallelTriangle"]}
{"id": "C30", "title": "Removing the isosurface at load keeps every other triangle and edge", "statement": "Removing the triangles and edges with the isosurface reference keeps every other triangle and edge exactly once and removes all the isosurface ones.", "quantifier": "all triangle and edge arrays, all patterns of isosurface references", "why_tests_cant": "Patterns of interleaved references are unbounded; the in-place swap only misbehaves for some orders.", "anchors": ["src/mmg3d/API_functions_3d.c:MMG3D_skipIso"]}
{"id": "C31", "title": "Scaling then unscaling restores the problem", "statement": "Scaling the mesh to the unit box and unscaling afterwards restores (in exact arithmetic) the coordinates of every used vertex, the metric / level-set at used vertices, hausd, hsiz, user-given hmin/hmax and local parameters; unscaling a second time changes nothing; scaled coordinates lie in [0,1].", "quantifier": "all meshes with positive extent, scalar / vector / tensor solutions, any parameters", "why_tests_cant": "Holds or fails over all coordinates and parameter combinations.", "anchors": ["src/common/scalem.c:MMG5_boundingBox", "src/common/scalem.c:MMG5_scale_meshAndSol", "src/common/scalem.c:MMG5_unscaleMesh"]}
{"id": "C32", "title": "Invalid metrics are always rejected", "statement": "A scalar metric with a non-positive value at some vertex is rejected by the metric scaling step, whatever meshes were processed before in the same process.", "quantifier": "all call histories in one process", "why_tests_cant": "The error path keeps process-global state, so the outcome depends on the history.", "anchors": ["src/common/scalem.c:MMG5_scale_scalarMetric"]}
{"id": "C33", "title": "Sizes are truncated inside [hmin,hmax]", "statement": "After truncation of an isotropic metric all prescribed sizes lie in [hmin,hmax], with hmin<=hmax and user-given bounds unchanged; sizes already inside the bounds are unchanged; vertices without size get hmax.", "quantifier": "all size fields and all combinations of user-given / automatic bounds", "why_tests_cant": "Combination of automatic bound computation and arbitrary fields.", "anchors": ["src/common/scalem.c:MMG5_solTruncature_iso", "src/common/scalem.c:MMG5_check_hminhmax"]}
{"id": "C34", "title": "Default and constant size bounds are ordered", "statement": "The default truncature computation succeeds iff the user did not give contradictory bounds, never changes a user-given bound, and on success 0 < hmin <= hmax; the constant-size computation yields hmin <= hsiz <= hmax or reports an error.", "quantifier": "all combinations of unset and positive user-given hmin, hmax, hsiz", "why_tests_cant": "All real values and flag combinations.", "anchors": ["src/common/API_functions.c:MMG5_Set_defaultTruncatureSizes", "src/common/API_functions.c:MMG5_Compute_constantSize", "src/common/API_functions.c:MMG5_Set_constantSize"]}
{"id": "C35", "title": "Isotropic gradation only reduces sizes and enforces the gradation bound at convergence", "statement": "Isotropic gradation never increases a size, never changes the minimal size, leaves sizes of vertices of required edges alone, and if it stops before its iteration limit then along every edge between regular vertices sizes differ by at most gradation times edge length.", "quantifier": "all meshes, size fields and gradation values", "why_tests_cant": "The incremental flagging scheme skips edges believed to be fine; correctness of skipping is a history invariant.", "anchors": ["src/common/isosiz.c:MMG5_gradsiz_iso"]}
{"id": "C36", "title": "Small linear algebra kernels return exact inverses", "statement": "In exact arithmetic, whenever the 2x2, symmetric 3x3 and general 3x3 inversions report success on a non singular matrix, the result is the inverse; the symmetric solver returns the solution of the system; the tensor congruence kernel returns R M R^T.", "quantifier": "all matrices", "why_tests_cant": "Universally quantified algebraic identities.", "anchors": ["src/common/tools.c:MMG5_invmat", "src/common/tools.c:MMG5_invmatg", "src/common/tools.c:MMG5_invmat33", "src/common/tools.c:MMG5_invmat22", "src/common/tools.c:MMG5_sys33sym", "src/common/tools.c:MMG5_rmtr", "src/common/tools.c:MMG5_mn"]}
{"id": "C37", "title": "Index sort returns a sorting permutation", "statement": "The small index sort returns a permutation of the indices along which the values are non-decreasing, and applying the permutation routine yields the values in that order.", "quantifier": "all array lengths and values", "why_tests_cant": "All lengths and all value patterns including ties.", "anchors": ["src/common/tools.c:MMG5_nsort", "src/common/tools.c:MMG5_nperm"]}
{"id": "C38", "title": "File name extension handling", "statement": "The extension finder returns the suffix from the last dot of the last path component, or nothing when that component has no dot (or only a leading one); extension removal applied to a name made of a stem and an extension returns the stem.", "quantifier": "all path strings", "why_tests_cant": "All strings, including directories with dots.", "anchors": ["src/common/API_functions.c:MMG5_Get_filenameExt", "src/common/API_functions.c:MMG5_Remove_ext", "src/common/API_functions.c:MMG5_Get_format"]}
{"id": "C39", "title": "Keeping one sub-domain keeps exactly its elements", "statement": "Keeping the elements of one reference deletes exactly the elements of other references, never the kept ones, and leaves no neighbour link to a deleted element.", "quantifier": "all meshes with symmetric adjacency, all references", "why_tests_cant": "Arbitrary meshes; deletions shrink the array while it is being traversed.", "anchors": ["src/common/tools.c:MMG5_keep_subdomainElts"]}
{"id": "C40", "title": "Unused vertices are exactly those used by no kept entity", "statement": "After one sub-domain has been kept, a vertex is valid iff some kept element (or quadrilateral/prism) uses it, or it is a required vertex that no element of the original mesh used.", "quantifier": "all meshes", "why_tests_cant": "Arbitrary connectivity.", "anchors": ["src/common/tools.c:MMG5_mark_verticesAsUnused", "src/common/tools.c:MMG5_mark_usedVertices"]}
{"id": "C41", "title": "Edge split of a tetrahedron conserves volume and conformity", "statement": "Splitting a tetrahedron at a point of one of its edges (each of the six configurations) yields two tetrahedra with the same orientation whose volumes add up to the original; the two halves share exactly the face through the new vertex and inherit the remaining faces.", "quantifier": "all six edges, all coordinates, all positions of the point on the edge", "why_tests_cant": "All coordinates; six hand-written permutation tables.", "anchors": ["src/mmg3d/split_3d.c:MMG3D_split1_cfg", "src/mmg3d/split_3d.c:MMG5_split1"]}
{"id": "C42", "title": "Prism adjacency", "statement": "After building prism adjacencies, the table is symmetric; on a conforming mesh every link joins two different faces with exactly the same vertices and no two faces with the same vertices are both left without neighbour.", "quantifier": "all prism meshes", "why_tests_cant": "Arbitrary connectivity; quadrilateral faces are compared through three of their four vertices only.", "anchors": ["src/mmg3d/hash_3d.c:MMG3D_hashPrism"]}
{"id": "C43", "title": "Rotation onto the vertical axis is a rotation", "statement": "For every unit vector the computed 3x3 matrix is orthogonal with determinant 1 and sends the vector onto the third axis, exactly when the vector is not almost vertical and up to the documented threshold otherwise (including the downward vertical vector).", "quantifier": "all unit vectors and all positive thresholds at most 1", "why_tests_cant": "A continuum of vectors with a degenerate neighbourhood of both poles.", "anchors": ["src/common/tools.c:MMG5_rotmatrix"]}
{"id": "C44", "title": "Neighbour vertices of a surface vertex are enumerated completely", "statement": "Listing the vertices joined to a given surface vertex returns exactly the vertices joined to it by an edge of the triangles around it, and the triangles around it, whether the fan of triangles is closed or bounded by two open edges.", "quantifier": "all conforming oriented triangulations, all vertices, all starting triangles", "why_tests_cant": "The start of the walk relative to an open boundary and the number of triangles behind it are arbitrary.", "anchors": ["src/common/boulep.c:MMG5_boulep"]}
{"id": "C45", "title": "2D edge collapse keeps a conforming mesh", "statement": "Removing a vertex of a 2D mesh by merging it onto a neighbour, whatever the number of triangles around it and whether it is interior or on the boundary, removes exactly the triangles of the merged edge, replaces the vertex in all other triangles around it, leaves triangle references alone, keeps neighbour links symmetric and oriented, keeps edge tags and references equal on both sides of every edge, and conserves the area (up to the cut boundary triangle).", "quantifier": "all conforming 2D triangulations, all vertices, all admissible neighbours, all attribute values", "why_tests_cant": "The number of triangles around the vertex, the presence of outer neighbours and the attributes are unbounded.", "anchors": ["src/mmg2d/colver_2d.c:MMG2D_colver", "src/mmg2d/colver_2d.c:MMG2D_colver3", "src/mmg2d/colver_2d.c:MMG2D_colver2"]}
{"id": "C46", "title": "Splitting a tetrahedron keeps boundary attributes", "statement": "Whatever edges of a tetrahedron are split (1 to 6 edges, every pattern and every choice made from the vertex numbers), every sub-tetrahedron keeps the reference of the tetrahedron, every piece of an edge or of a face keeps the tag and reference of the edge or face it lies on, a new edge drawn inside a face takes the tags of that face (without the reference-edge tag), pieces of faces keep the orientation flag, and edges and faces interior to the tetrahedron carry nothing.", "quantifier": "all 63 split patterns, all vertex numberings, all tag and reference values, all child tetrahedra", "why_tests_cant": "Hand-written tables for each pattern, permuted by the configuration and by comparisons of vertex numbers; tests meet few of the several hundred combinations.", "anchors": ["src/mmg3d/split_3d.c:MMG5_split1", "src/mmg3d/split_3d.c:MMG5_split2", "src/mmg3d/split_3d.c:MMG5_split2sf", "src/mmg3d/split_3d.c:MMG5_split3", "src/mmg3d/split_3d.c:MMG5_split3cone", "src/mmg3d/split_3d.c:MMG5_split3op", "src/mmg3d/split_3d.c:MMG5_split4sf", "src/mmg3d/split_3d.c:MMG5_split4op", "src/mmg3d/split_3d.c:MMG5_split5", "src/mmg3d/split_3d.c:MMG5_split6"]}
{"id": "C47", "title": "Splitting a tetrahedron conserves volume and orientation", "statement": "For every split pattern the volumes of the sub-tetrahedra add up to the volume of the tetrahedron wherever the new points are, and when each new point lies on its edge no sub-tetrahedron is inverted (and none is flat when the points are strictly inside and the tetrahedron is positive).", "quantifier": "all split patterns, all vertex numberings, all coordinates, all positions of the new points on their edges", "why_tests_cant": "A continuum of coordinates for several hundred table instances.", "anchors": ["src/mmg3d/split_3d.c:MMG5_split1", "src/mmg3d/split_3d.c:MMG5_split6", "src/mmg3d/mmg3d1.c:MMG5_anatet"]}
{"id": "C48", "title": "Pattern splitting of a whole mesh is conforming", "statement": "When every tetrahedron of a mesh is split according to the points inserted on its edges, the cut of a face depends on the face only, so a face shared by two tetrahedra is cut in the same way from both sides: the faces of the new mesh are the cut faces of the old one, plus inner faces that occur exactly twice; the total volume is conserved.", "quantifier": "all meshes, all sets of edges that receive a point, all vertex numberings", "why_tests_cant": "Each tetrahedron is split without looking at its neighbours; agreement on all shared faces is a global property.", "anchors": ["src/mmg3d/mmg3d1.c:MMG5_anatet", "src/mmg3d/mmg3d1.c:MMG3D_splsurfedge", "src/mmg3d/split_3d.c"]}
{"id": "C49", "title": "Search of a valid position for split points", "statement": "The simulation of a split accepts exactly when no sub-tetrahedron is worse than the volume threshold; if the search of positions for the new points succeeds the split it leaves is accepted, every point stays on the segment between the edge midpoint and its original position, and it succeeds whenever the tetrahedron is large enough.", "quantifier": "all split patterns, all coordinates, all thresholds, all numbers of iterations", "why_tests_cant": "The search moves all points together for a number of iterations; the outcome must be valid for every geometry.", "anchors": ["src/mmg3d/mmg3d1.c:MMG3D_dichoto", "src/mmg3d/split_3d.c:MMG3D_split1_sim"]}
{"id": "C50", "title": "Star split of a tetrahedron at its barycentre", "statement": "Inserting a point inside a tetrahedron replaces it by four tetrahedra of a quarter of the volume each and the same orientation, each keeping one face with its attributes; the neighbour table stays symmetric and only joins faces with the same vertices.", "quantifier": "all tetrahedral meshes with a symmetric neighbour table, all tetrahedra, all attribute values", "why_tests_cant": "Sixteen neighbour entries and up to three outside entries must be rewritten consistently.", "anchors": ["src/mmg3d/split_3d.c:MMG5_split4bar"]}
{"id": "C52", "title": "Tensor sizes are truncated inside [hmin,hmax]", "statement": "After truncation of a 3D tensor metric every length prescribed at a vertex lies in [hmin,hmax] in every direction, user-given bounds are unchanged and ordered, vertices without metric get the isotropic metric of size hmax, and a metric that lies inside the user-given bounds is unchanged.", "quantifier": "all tensor fields, all directions, all combinations of user-given and automatic bounds, any diagonalisation routine that meets its specification", "why_tests_cant": "Quantifies over all directions of all tensors; automatic bounds come from the extremal eigenvalues over the mesh.", "anchors": ["src/common/scalem.c:MMG5_3dSolTruncature_ani"]}
{"id": "C53", "title": "Gradation from required vertices", "statement": "The gradation that starts at required edges never changes the size at a vertex of a required edge, keeps sizes positive, and if it stops before its iteration limit the sizes at the ends of every edge that leaves a required edge towards a vertex not adjusted differ by at most the required gradation times the edge length.", "quantifier": "all meshes, size fields, markings and gradation values", "why_tests_cant": "The propagation order is driven by marks that change during the passes; correctness is a history invariant.", "anchors": ["src/common/isosiz.c:MMG5_gradsizreq_iso", "src/mmg3d/isosiz_3d.c:MMG3D_gradsizreq_iso"]}
{"id": "C54", "title": "Normals after the final 3D packing", "statement": "After the final packing of the 3D mesh every regular boundary vertex (on the boundary, no corner, ridge, reference or non-manifold tag, with a boundary record) carries the normal stored in its boundary record.", "quantifier": "all meshes with any pattern of unused points (at least one used point)", "why_tests_cant": "Whether a vertex is visited depends on the position of the holes in relation to the last used point; tests compare few meshes.", "anchors": ["src/mmg3d/libmmg3d.c:MMG3D_pack_pointArray"]}
{"id": "C55", "title": "Free points after the final 3D packing", "statement": "After the final packing of the 3D mesh the chain of free points contains exactly the slots above the last point, so that a later run on the same mesh never receives a used point as a new one.", "quantifier": "all point arrays reached by creating and deleting points, then packed", "why_tests_cant": "The defect needs the last slot of the array to have been used and deleted; small tests never fill the array.", "anchors": ["src/mmg3d/libmmg3d.c:MMG3D_pack_pointArray", "src/mmg3d/zaldy_3d.c:MMG3D_newPt"]}
{"id": "C56", "title": "Edges of the output 2D mesh and their triangles", "statement": "After a successful 2D run the edge list contains every edge on the boundary and every edge between two domains exactly once (plus the required edges), with renumbered end points, reference and tag of the triangle side; asking for the triangle(s) of an edge returns exactly the renumbered triangle(s) on it with the right local side(s). The table is filled exactly to its allocated size.", "quantifier": "all 2D meshes with symmetric adjacency, any pattern of unused points and triangles, any tags and references, with or without quadrilaterals", "why_tests_cant": "Counting and filling are separate passes with separately written conditions; agreement must hold for all tag, reference and neighbour combinations.", "anchors": ["src/mmg2d/hash_2d.c:MMG2D_pack", "src/mmg2d/libmmg2d_tools.c:MMG2D_Get_triFromEdge", "src/mmg2d/libmmg2d_tools.c:MMG2D_Get_trisFromEdge"]}
{"id": "C57", "title": "A moved vertex is moved in the octree", "statement": "After a vertex has been moved (with either its old or its new coordinates in the mesh during the call, as documented) the octree still stores every vertex once, in the cell of its current position, so that a later deletion removes it and a later search finds it.", "quantifier": "all octree histories, all old and new positions, both documented calling conventions", "why_tests_cant": "The failure is silent: a stale cell only changes which insertions are filtered; it needs both calling conventions and moves across cell faces.", "anchors": ["src/mmg3d/PRoctree_3d.c:MMG3D_movePROctree", "src/mmg3d/PRoctree_3d.c:MMG3D_getPROctreeCoordinate", "src/mmg3d/movpt_3d.c:MMG5_movintpt_iso"]}
{"id": "C58", "title": "2-3 swaps keep the mesh and its boundary data", "statement": "When two tetrahedra that share a face are replaced by three tetrahedra around the edge joining their opposite vertices, the adjacency stays symmetric and joins equal faces, the union of the tetrahedra and the total volume are unchanged, every face and edge that is kept has the reference, tag and orientation it had before, the new faces and the new edge have none, and no other tetrahedron changes its boundary record.", "quantifier": "all valid tetrahedral meshes, all pairs of tetrahedra in all 4 x 12 relative configurations, all boundary data, all tables of records with or without a free slot", "why_tests_cant": "The function works through two permutation tables with 48 combinations and six ways to place the records; a unit test exercises a few of them and does not look at tags or orientation bits.", "anchors": ["src/mmg3d/swap_3d.c:MMG3D_swap23", "src/mmg3d/mmg3d1.c:MMG3D_anatet4_sim"]}
{"id": "C59", "title": "The shell of an edge lists each tetrahedron around it exactly once", "statement": "When the list of the tetrahedra around an edge is asked for, it holds exactly the tetrahedra reached from the given one through faces that contain the edge, each once and with the right local number of the edge, in an order in which consecutive tetrahedra share such a face; the shell is reported as closed exactly when no face around the edge is on the boundary of the mesh, and the edge as a boundary edge exactly when one of these faces has no neighbour or is a boundary face; without a list, a tetrahedron around the edge is required or there are too many of them. A required tetrahedron prevents the list.", "quantifier": "all tetrahedral meshes with symmetric conforming adjacency and four different vertices per tetrahedron, all tetrahedra, all edges, all limits of the list length", "why_tests_cant": "Tests see a few shells; that the turn neither skips nor repeats a tetrahedron, whatever the numbering and whichever boundary face ends it, is a statement on all adjacency tables.", "anchors": ["src/mmg3d/boulep_3d.c: MMG5_coquil, MMG3D_findEdge"]}
{"id": "C60", "title": "Edge tags are set and removed in the whole shell and nowhere else", "statement": "Setting tags on an edge from any tetrahedron around it gives them, and the largest of the old and new references, to that edge in every tetrahedron around it that has boundary data, and changes nothing else; tetrahedra that agreed on the edge before agree afterwards. Removing tags does so in every tetrahedron around the edge with a boundary face through it, and nowhere else. Both always end.", "quantifier": "all tetrahedral meshes with symmetric conforming adjacency, all edges, tags and references, all contents of the boundary records", "why_tests_cant": "The edge data is duplicated in the records of all tetrahedra around the edge; agreement of all copies is a global invariant that samples cannot establish.", "anchors": ["src/mmg3d/boulep_3d.c: MMG5_settag, MMG3D_settag_oneDir, MMG5_deltag, MMG3D_deltag_oneDir"]}
{"id": "C61", "title": "Edge data found by turning around the edge", "statement": "Asking for the tag and reference of an edge gives those of a tetrahedron around the edge that knows it as a boundary edge, if there is one, and leaves the given tag and reference unchanged otherwise; when the tetrahedra agree, the answer does not depend on the starting one. Asking whether an edge is on the boundary says whether a face through it is a boundary face. Updating the data of an edge makes all tetrahedra around it agree.", "quantifier": "all tetrahedral meshes with symmetric conforming adjacency, all edges, all contents of the boundary records", "why_tests_cant": "The answer must be the same from every tetrahedron around the edge, for every distribution of the records; tests fix one mesh and one starting point.", "anchors": ["src/mmg3d/colver_3d.c: MMG3D_get_shellEdgeTag, MMG3D_get_shellEdgeTag_oneDir, MMG3D_update_shellEdgeTag, MMG3D_update_shellEdgeTag_oneDir", "src/mmg3d/boulep_3d.c: MMG5_srcbdy"]}
{"id": "C62", "title": "The ball of a vertex lists each tetrahedron around it exactly once", "statement": "When the list of the tetrahedra around a vertex is asked for, it holds exactly the tetrahedra reached from the given one through faces that contain the vertex, each once and with the right local number of the vertex, the given tetrahedron first; the tetrahedra marked by the search are exactly those of the list; no list is given only when there are more tetrahedra than the list can hold.", "quantifier": "all tetrahedral meshes with symmetric conforming adjacency and four different vertices per tetrahedron, all tetrahedra and vertices, all limits of the list length, all earlier marks", "why_tests_cant": "Completeness and absence of repetition of a search by adjacency concern all meshes and numberings; tests look at a few balls.", "anchors": ["src/mmg3d/boulep_3d.c: MMG5_boulevolp"]}
{"id": "C63", "title": "Collapse of an edge in 3D keeps the mesh and the boundary data right", "statement": "After the collapse of a vertex p onto a vertex q, the tetrahedra around the edge are deleted, p is replaced by q in the other ones and used nowhere, the adjacency is symmetric and linked faces have the same vertices, no tetrahedron is the same as a neighbour; both sides of a face agree on its reference and tags, faces on the outside and between different references are boundary faces with the right orientation, and no two tetrahedra share a boundary record. A face that results from two faces has the tags of both and the larger reference; the other faces are unchanged. No assertion fails; the collapse is refused, with nothing changed, exactly when it would create an existing tetrahedron.", "quantifier": "all tetrahedral meshes with symmetric conforming adjacency, all edges, all balls, all contents of the boundary records, all answers of the allocator", "why_tests_cant": "The invariants are on the whole mesh and each collapse rewrites several neighbours and records; tests check a few configurations, and debug assertions only local ones.", "anchors": ["src/mmg3d/colver_3d.c: MMG5_colver", "src/mmg3d/zaldy_3d.c: MMG3D_delElt"]}
{"id": "C64", "title": "Insertion of a vertex in a cavity gives a valid mesh with the same volume and boundary", "statement": "The insertion of a vertex in a cavity (a set of tetrahedra) whose surface has no edge on more than two of its faces either changes nothing, or fails for lack of memory, or replaces the cavity by one tetrahedron over each face of its surface, from the face to the new vertex. The result is a valid mesh: symmetric links between faces with the same vertices, seen with opposite orientations if they were so before. The oriented volume is kept wherever the new vertex is, no vertex is lost, the other tetrahedra are unchanged. Each face of the surface keeps its reference and tag, and those of its edges if the face has any; faces inside of the cavity have none; no two tetrahedra share a boundary record. It is refused exactly if a vertex would be lost or if there are too many faces. The table of edges is never read outside of its bounds and never has to grow.", "quantifier": "all tetrahedral meshes with symmetric conforming adjacency, all cavities, all numbers of free tetrahedra, all contents of the boundary records, all answers of the allocator, all points in space", "why_tests_cant": "The glue of the new tetrahedra goes through a hash table over an arbitrary number of edges; correctness needs a parity argument on the surface of the cavity. Tests only reach the cavities of a few meshes.", "anchors": ["src/mmg3d/delaunay_3d.c: MMG5_delone, MMG5_hashEdgeDelone", "src/mmg3d/zaldy_3d.c: MMG3D_delElt"]}
{"id": "C65", "title": "The cavity found for a vertex inserted on an edge is a correct place for the insertion", "statement": "The search of the cavity for a new vertex always ends and never writes outside of its list. If it succeeds, the answer is the number of tetrahedra of a list without repetition that begins with the tetrahedra around the edge, has no required tetrahedron, fewer than the maximal number of entries, and is exactly the set of marked tetrahedra. All faces of its surface pass the numerical test, no boundary face is inside, all its tetrahedra have the same reference, and the growth stops only when no face can be crossed any more. A refusal happens only for a stated cause, and whatever the answer the marks left cannot be taken by the next search for its own. If moreover tetrahedra have positive volumes and do not overlap, the insertion of the vertex in the cavity gives a valid oriented mesh, all tetrahedra of the result have positive volumes, the volume is the same, and every boundary face is still there with its reference and tag. This holds for the isotropic and the anisotropic test.", "quantifier": "all tetrahedral meshes with symmetric conforming adjacency and consistent boundary faces, all edges, all outcomes of the sphere tests, all metrics, all points in space, all sizes of the lists", "why_tests_cant": "Growth, correction and insertion are three loops that only agree through marks; that the surface of the cavity has no edge on more than two faces is never tested by the code and follows from the geometry of a mesh without overlaps. Tests only see a few cavities.", "anchors": ["src/mmg3d/delaunay_3d.c: MMG5_cavity_iso, MMG5_cavity_ani, MMG5_correction_iso, MMG5_correction_ani, MMG5_delone"]}
{"id": "C66", "title": "The operations of the 3D remesher never make tetrahedra overlap", "statement": "Start from a tetrahedral mesh with symmetric conforming adjacency, positive volumes, and no point inside of two tetrahedra. Insert vertices in cavities found by the library, collapse edges, swap faces and relocate vertices, any number of times in any order, where collapses, swaps and relocations are accepted only if the new tetrahedra have positive volumes, and where a boundary vertex is not moved to the outside of the boundary faces around it. After each of these operations the mesh is again such a mesh; moreover linked faces are seen with opposite orientations and no tetrahedron is a copy of a neighbour. For interior vertices positive volumes are enough. For boundary vertices they are not: a vertex can be moved through another part of the mesh while all volumes stay positive.", "quantifier": "all tetrahedral meshes, all positions of the vertices in an ordered field, all finite sequences of accepted operations, all outcomes of the allocator and of the sphere tests", "why_tests_cant": "The code only tests the volumes (qualities) of the new tetrahedra; that this is enough for the absence of overlaps is a global geometric fact. A test sees one mesh and would have to check all pairs of tetrahedra.", "anchors": ["src/mmg3d/delaunay_3d.c: MMG5_cavity_iso, MMG5_cavity_ani, MMG5_delone", "src/mmg3d/colver_3d.c: MMG5_colver", "src/mmg3d/swap_3d.c: MMG3D_swap23", "src/mmg3d/movpt_3d.c: MMG5_movintpt_iso"]}
{"id": "C67", "title": "The quality of an element is a shape measure between 0 and 1", "statement": "The quality given for a tetrahedron is, up to rounding of a constant, between 0 and 1; it is 0 exactly for flat or inverted tetrahedra and 1 exactly for the regular ones. It does not change under rotations, translations, changes of the unit of length, and renumberings that keep the orientation. With a positive definite metric the same holds with lengths measured in the metric, the value is always a number, the mean of the metrics of the vertices is again positive definite, and a metric of uniform size gives the isotropic value. The same for triangles in 2D. A quality that passes the validity test means a positive volume. For a metric which is not positive definite but has a positive determinant the value may not be a number.", "quantifier": "all positions of the vertices in real coordinates, all symmetric matrices as metrics (positive definite for the bounds)", "why_tests_cant": "The bounds are sharp inequalities between the volume and the lengths of the edges (degree six in twelve coordinates and six metric entries); a test evaluates single elements.", "anchors": ["src/mmg3d/inlined_functions_3d_private.h: MMG5_caltet_iso_4pt, MMG5_caltet_ani", "src/mmg3d/quality_3d.c: MMG5_caltet33_ani", "src/mmg2d/quality_2d.c: MMG2D_caltri_iso, MMG2D_caltri_ani", "src/mmg3d/API_functions_3d.c: MMG3D_Get_tetrahedronQuality"]}
{"id": "C68", "title": "The printed statistics on the qualities are those of the mesh, and the verdict agrees with them", "statement": "The histogram, the numbers of elements above 0.12 and 0.5, the best, worst and average qualities and the rank of the worst element are exactly those of the used tetrahedra; if the worst quality is below 1 every class with an element is printed. The input is refused exactly if a used tetrahedron has a quality below the threshold, and then the statistics agree. After the remeshing with an anisotropic metric, tetrahedra with four ridge points are left out of the sum but not of the number of elements: the printed average is too low. At the end the verdict depends on the verbosity, and with optimLES it is reversed.", "quantifier": "all arrays of tetrahedra with used and unused entries, all qualities in the range of C67, all verbosities, all thresholds", "why_tests_cant": "Counts over arrays of any length with holes; the wrong cases need tetrahedra with four ridge points, a verbosity of 0, or optimLES with a verbosity of 1 or 2.", "anchors": ["src/mmg3d/quality_3d.c: MMG3D_tetraQual, MMG3D_computeInqua, MMG3D_inqua, MMG3D_computeOutqua, MMG3D_outqua, MMG3D_computeLESqua, MMG3D_displayQualHisto_internal", "src/common/quality.c: MMG5_minQualCheck"]}
{"id": "C69", "title": "Vertex relocations and collapses accepted by the quality tests keep a valid mesh and bound the loss of quality", "statement": "Relocation of an interior vertex: if it is refused nothing changes; if accepted only this vertex moves, to a point in the convex hull of its tetrahedra, all volumes stay positive and no tetrahedra overlap, the qualities stored with the tetrahedra are exact, the worst one is at least 0.3 of the worst one before, and when degradation is forbidden at least 1.02 of it, so the worst quality of the mesh never decreases in any sequence of such relocations. Collapse of an interior vertex: a collapse that passes the test creates tetrahedra with positive volumes and qualities at least 0.3 of the worst replaced one, and leaves a mesh without overlaps. The octree however is told the position of another vertex as the old position of the moved one.", "quantifier": "all meshes, all positions, all lists of the tetrahedra around the vertex, all thresholds and all quality functions which are below the threshold for non positive volumes, all sequences of accepted relocations", "why_tests_cant": "The guarantee is about every later state of the mesh; a test runs some relocations and cannot see that the tests made on copies of the tetrahedra are those of the real ones.", "anchors": ["src/mmg3d/movpt_3d.c: MMG5_movintpt_iso", "src/mmg3d/colver_3d.c: MMG5_chkcol_int, MMG5_colver"]}
{"id": "C70", "title": "The consistency checks run in debug mode accept exactly the consistent meshes", "statement": "In debug mode the library checks the mesh and fails if the check answers 0. In 3D the answer is 1 exactly when every link between two tetrahedra is symmetric, joins two different tetrahedra of the mesh by faces with the same three vertices, and all faces without neighbour or between two references are tagged as boundary faces; so the mesh meets the hypotheses of the operations (C50, C58-C66). In 2D, when the check succeeds, links are symmetric, tags of edges and vertices agree, and linked edges have the same vertices in opposite order. On surfaces links are symmetric, both sides have the same tag and reference, and regular edges are seen in opposite directions. No array is read out of its bounds unless a link points there. What the checks do not see, and the valid meshes they reject, is stated.", "quantifier": "all meshes, all tables of links, all tags and references, all modes of the checks", "why_tests_cant": "The claim is an equivalence: no inconsistent mesh passes and no consistent one fails. A test tries some meshes of each kind.", "anchors": ["src/mmg3d/chkmsh_3d.c: MMG5_mmg3dChkmsh", "src/mmg2d/chkmsh_2d.c: MMG5_mmg2dChkmsh", "src/mmg2d/boulep_2d.c: MMG2D_boulep", "src/mmgs/chkmsh_s.c: MMG5_mmgsChkmsh"]}
{"id": "C71", "title": "A remeshing parameter read back is the last value given to it, whatever else was set in between", "statement": "After any sequence of calls that set integer and real parameters, in any order and with any failed allocations, reading an integer parameter gives the last accepted value given to it (the value must be representable in its type), and no other call changes it, except that a lagrangian motion of mode 0 or 1 forbids insertions and that the detection of angles is shared by two parameters, the last one decides. Without failed allocation a readable parameter is refused only for a bad mode of motion, and then nothing changes. The Hausdorff number stays positive and the relaxation between 0 and 1; the gradation is stored so that its exponential is the value given. After declaring n base references of the level set, n references can be given and are stored. Cases where this fails are shown.", "quantifier": "all sequences of calls, all parameters, all values, all answers of the allocator, all compilation flags, the three libraries", "why_tests_cant": "Parameters share fields and are narrowed to small types; a test sets some of them once, in one order.", "anchors": ["src/mmg3d/API_functions_3d.c: MMG3D_Set_iparameter, MMG3D_Get_iparameter, MMG3D_Set_dparameter", "src/mmg2d/API_functions_2d.c: MMG2D_Set_iparameter, MMG2D_Set_dparameter", "src/mmgs/API_functions_s.c: MMGS_Set_iparameter, MMGS_Get_iparameter, MMGS_Set_dparameter", "src/common/libtools.c: MMG5_Set_lsBaseReference"]}
{"id": "C72", "title": "The limits on the numbers of vertices and tetrahedra computed from the allowed memory stay inside the arrays", "statement": "After an accepted declaration of the mesh sizes the mesh is within the limits, the arrays have the size of the limits, and they fit in the allowed memory (the memory of the mesh and half of the rest). Later changes of the allowed memory, of any number, keep the limits inside the arrays as long as they do not raise the memory; the rebuilding of the free chain writes inside the array exactly in this case. The allowed memory is always the initial one, half of the physical one or a value asked. Raising the memory after the declaration, giving again the same value as before it, or a refused value, makes the limits exceed the arrays.", "quantifier": "all numbers of entities, all sizes of types, all physical memories, all sequences of values for the memory", "why_tests_cant": "Whether an index is behind an array depends on the order of the calls and on the memory of the machine; a test runs on one machine with large memory where other bounds are smaller.", "anchors": ["src/mmg3d/zaldy_3d.c: MMG3D_memOption, MMG3D_memOption_memRepartition, MMG3D_setMeshSize_alloc", "src/common/tools.c: MMG5_memOption_memSet", "src/mmg3d/API_functions_3d.c: MMG3D_Set_meshSize, MMG3D_Set_iparameter", "src/mmg3d/hash_3d.c: MMG5_paktet"]}
{"id": "C73", "title": "A 3D mesh written to a file and read again is the same mesh", "statement": "For every mesh with at least one tetrahedron whose elements use used vertices: reading the ASCII file written from it gives the used vertices in their order with consecutive numbers, printed coordinates and the absolute value of the references, the same tetrahedra, prisms, triangles, quadrilaterals and edges in terms of the new numbers (tetrahedra with negative volume turned), the same corners, required and parallel entities, ridges, and the normals of regular boundary vertices; reading the binary file gives the same with exact coordinates and without the parallel entities. A vertex is unused after the reading exactly if it is not required and in no tetrahedron nor prism. Without such vertices further writings and readings change nothing. A mesh without tetrahedra cannot be read again, and a file without triangles is refused by a mesh object that had triangles before.", "quantifier": "all meshes, all used or unused entities, all coordinates and references, all roundings of the printed coordinates, both formats, all previous numbers of vertices and tetrahedra of the object that reads (ASCII)", "why_tests_cant": "A test writes and reads some meshes; here the positions of the parts, the lists of numbers and the renumbering are right for every combination of present and absent parts.", "anchors": ["src/mmg3d/inout_3d.c: MMG3D_saveMesh, MMG3D_loadMesh_opened, MMG3D_loadMesh"]}
{"id": "C74", "title": "Discretizing a level set in 3D cuts the mesh along it", "statement": "For every tetrahedral mesh and level set: the snapping of small values ends, leaves values that are 0 or not small, keeps the values that are not small and passes the test on the balls of the snapped vertices; the cut inserts one point on each edge with values of opposite sign of a tetrahedron to be split, on the zero of the linear interpolation (up to the distance kept from the ends), and no other point; the pieces of a tetrahedron have positive volumes whose sum is its volume, inherit its data and lie on one side of the level set; the mesh stays conforming; the references of the pieces are those of the material table (3 inside and 2 outside without a table), the two parts only meet at vertices on the level set, and the references can be sent back to those before the cut.", "quantifier": "all meshes, all values of the level set, all tables of materials, all required entities, all answers of the test on the balls, all numbers given to the new points", "why_tests_cant": "A test cuts some meshes by some level sets; here every sign pattern of every tetrahedron, every order of the tetrahedra and every combination of split and unsplit neighbours is covered.", "anchors": ["src/mmg3d/mmg3d2.c: MMG3D_snpval_ls, MMG3D_cuttet_ls, MMG3D_setref_ls, MMG3D_resetRef_ls, MMG3D_mmg3d2", "src/mmg3d/split_3d.c: MMG5_split1, MMG5_split2sf, MMG5_split3cone, MMG5_split4op"]}
{"id": "C75", "title": "Discretizing a level set cuts a mesh of triangles along it, in the plane and on a surface", "statement": "For every mesh of triangles and level set, when the memory is sufficient: the snapping keeps the values that are not small and leaves values that are 0 or not small; the cut inserts one point on each edge with values of opposite sign of a triangle to be split, on the zero of the linear interpolation (up to the distance kept from the ends), and no other point; each triangle is replaced by pieces whose area vectors are positive multiples of its own, with factors of sum 1; the edges of the result are those of the mesh, cut at their point, and inner edges shared by exactly two pieces, so that the result is conforming where the mesh is; parts of an edge keep its tag and reference and the inner edges have none; the pieces of split triangles lie on one side of the level set, have a vertex off it if the triangle has one and get the reference of their side, the others keep theirs; the edges on the level set and their ends get its reference, the other edges keep theirs; the two parts only meet on the level set, and the references can be sent back to those before the cut.", "quantifier": "all meshes of triangles in the plane and in space, all values of the level set, all tables of materials, all references and tags, all answers of the test on the balls, all numbers given to the new points", "why_tests_cant": "A test cuts some meshes by some level sets; here every sign pattern, every order of the triangles and every combination of split and unsplit neighbours is covered.", "anchors": ["src/common/mmg2.c: MMG5_snpval_ls, MMG5_setref_ls, MMG5_resetRef_ls", "src/mmg2d/mmg2d6.c: MMG2D_cuttri, MMG2D_mmg2d6", "src/mmgs/mmgs2.c: MMGS_cuttri, MMGS_mmgs2", "src/mmg2d/split_2d.c: MMG2D_split1, MMG2D_split2", "src/mmgs/split_s.c: MMGS_split1, MMGS_split2"]}
{"id": "C76", "title": "Removing the small components of a level set changes these components and nothing else", "statement": "For every mesh and level set, when the removal of small components is asked: the call succeeds; a positive component gets a small negative value at its positive vertices exactly if its volume is less than the given fraction of the volume of the mesh; then a negative component of the result gets a small positive value at its negative vertices exactly if its volume is less than this fraction or if base references are given and it touches none; all other values are unchanged; at the end every negative component is large enough and attached; with a null fraction and no base reference nothing changes. The volumes are those where the linear interpolation is positive and negative, for triangles in the plane and for tetrahedra.", "quantifier": "all meshes of triangles or tetrahedra whose elements around a vertex are connected through faces having it, all values, all fractions, all base references, all orders of the elements", "why_tests_cant": "A test removes some bubbles of some meshes; the number and the shape of the components, the order in which they are met and the sign pattern of each element are not bounded.", "anchors": ["src/common/mmg2.c: MMG5_rmc, MMG5_vfrac, MMG5_voltri, MMG5_isbr", "src/mmg3d/mmg3d2.c: MMG3D_rmc, MMG3D_vfrac, MMG3D_vfrac_1vertex"]}
{"id": "C77", "title": "The check of a discretized level set accepts exactly the manifold ones", "statement": "For every conforming triangulation whose level-set discretization is checked: the check ends, and it accepts exactly if at each vertex of an edge of the front met by the check the two sides are separated. Inside, the triangles having the reference of the side looked at are consecutive around the vertex; on the boundary of the mesh all triangles on one side of the edge have this reference and no triangle of the other side has it. When the input references are kept, at most one other edge of the level set (none on the boundary) comes out of the vertex.", "quantifier": "all triangulations with symmetric adjacency, of any number of triangles around a vertex, all references, all edge references, both modes", "why_tests_cant": "A test checks some level sets; the number of triangles around a vertex, the sequence of their references and the place of the boundary are not bounded.", "anchors": ["src/common/mmg2.c: MMG5_chkmaniball, MMG5_chkmanimesh"]}
{"id": "C78", "title": "The triangles of the analysed 3D mesh are exactly its boundary faces, once each", "statement": "For every mesh of tetrahedra and prisms with right neighbours and every list of triangles given by the user: after the analysis the triangles are exactly the boundary faces (faces without neighbour and faces between different references; a face between a tetrahedron and a prism also), once each. The triangles of the user that are boundary faces are kept first, with their reference and edge data (the first one if a face is given several times), the others are removed. The missing ones are added with the orientation and the reference given by the tetrahedra. Triangles between a tetrahedron and a prism become required. The number of triangles is the one used to make the arrays. When the internal triangles are preserved, the faces of tetrahedra given by the user are triangles too. Exactly the vertices of the triangles are flagged as boundary vertices. At the end the triangles rebuilt from the tetrahedra are the boundary faces and the internal faces kept, once each.", "quantifier": "all meshes of tetrahedra and prisms of any size with right neighbours, all references, all lists of triangles (with repetitions, extra and missing ones), preservation of internal triangles or not", "why_tests_cant": "A test analyses some meshes; the repetitions, the extra and the missing triangles, the references on both sides of the faces and the contacts between prisms and tetrahedra give an unbounded number of combinations.", "anchors": ["src/mmg3d/hash_3d.c: MMG5_bdryPerm, MMG5_chkBdryTria, MMG5_chkBdryTria_countBoundaries, MMG5_chkBdryTria_hashBoundaries, MMG5_chkBdryTria_flagExtraTriangles, MMG5_chkBdryTria_deleteExtraTriangles, MMG5_bdryTria"]}
{"id": "C79", "title": "The reference of a triangle of the user comes back in the final 3D mesh", "statement": "For every mesh of tetrahedra with right neighbours: a triangle of the user (the first one given for its face) that is a boundary face is, after the analysis and the final reconstruction of the triangles (without remeshing between), in the mesh exactly once and with its reference; and the triangles are exactly the boundary faces. When internal triangles are preserved, the same holds for the internal faces given by the user, provided no tetrahedron has the reference 2. In between, each face carries the reference and the tags common to the three edges of its triangle, on both sides, and the orientation bit on the side that has the orientation of the triangle.", "quantifier": "all meshes of tetrahedra of any size with right neighbours, all references, all lists of triangles, preservation of internal triangles or not", "why_tests_cant": "A test reads and writes some meshes; the sides of the faces, the order of the vertices given by the user, the references and the number of triangles are not bounded.", "anchors": ["src/mmg3d/hash_3d.c: MMG5_bdryPerm, MMG5_chkBdryTria, MMG5_bdryTria, MMG5_bdrySet", "src/mmg3d/libmmg3d.c: MMG3D_bdryBuild"]}
{"id": "C80", "title": "The analysis of the surface gives the triangles a common orientation and changes nothing else", "statement": "For every triangulated surface with reciprocal links: the traversal ends; if it succeeds every triangle has its three vertices and its neighbours, every edge keeps its reference and its tag (open edges become non-manifold, ordinary edges between different references become reference edges, nothing else), the numbers given to the triangles are the connected components, and a vertex carries the non-manifold, reference, ridge and required marks exactly if it had them or one of its edges has. If the surface can be oriented the traversal succeeds, the two triangles of every ordinary edge go along it in opposite directions, and the triangle of lowest number of each component keeps its orientation (so an oriented surface is not changed). The error 'Moebius strip?' is never raised for a surface that can be oriented.", "quantifier": "all triangulated surfaces of any size and numbering, with open, non-manifold and parallel edges, any orientations given, any number of components, both open-boundary modes", "why_tests_cant": "Whether a surface is orientable is a global property: a test tries a few surfaces and numberings, while the order of the traversal and the number of visits of each triangle depend on the numbering.", "anchors": ["src/mmg3d/analys_3d.c: MMG5_setadj", "src/common/hash.c: MMG5_mmgHashTria"]}
{"id": "C81", "title": "The intersection of two 2D metrics asks, in every direction, for a size at most that of both", "statement": "For every two 2D metrics whose sizes lie between hmin and hmax: if the intersection succeeds its result is a metric; unless the two metrics are proportional (up to the tolerance) it is in every direction at least as large as each of them and at most their sum, and along two independent directions, orthogonal for both, it equals the larger one. For proportional metrics the same holds up to an explicit relative tolerance. It always succeeds if hmax and hmax/hmin are below explicit thresholds. Sizes of the result never exceed hmax; they may be smaller than hmin.", "quantifier": "all pairs of symmetric positive definite 2x2 real matrices, all bounds hmin and hmax, all tolerances", "why_tests_cant": "The statement ranges over two matrices and all directions; the unit test of the library checks one pair of matrices.", "anchors": ["src/common/mettools.c: MMG5_intersecmet22", "src/common/eigenv.c: MMG5_eigenv2d, MMG5_eigensym"]}
{"id": "C82", "title": "The 2D metric given to a point created on an edge lies between those of the ends", "statement": "For every two 2D metrics and every position on the edge: the metric given to the new point is a metric, is in every direction at most the mean of those of the ends weighted by the position, is that of the end if the point is an end, its sizes lie between hmin and hmax if those of the ends do, and along two directions orthogonal for both the size varies linearly. This holds unless the metrics are proportional up to the tolerance; in that case too hmin is respected, and hmax up to an explicit relative tolerance. Isotropic sizes lie between those of the ends.", "quantifier": "all pairs of symmetric positive definite 2x2 real matrices, all positions in [0,1], all bounds, all tolerances", "why_tests_cant": "The statement ranges over two matrices, a position and all directions; no unit test checks the interpolation.", "anchors": ["src/mmg2d/intmet_2d.c: MMG5_interpmet22, MMG2D_intmet_ani, MMG2D_intmet_iso", "src/common/eigenv.c: MMG5_eigensym"]}
{"id": "C83", "title": "The 2D analysis marks exactly the boundary edges and the interfaces, and numbers the sub-domains", "statement": "For every 2D mesh with consistent adjacency, the analysis of the edges terminates and gives every side of every triangle the tag it is due: outer edges become ridges of the boundary, edges between two references (or, in the mode that keeps open boundaries, tagged edges) become reference edges of the boundary, required edges are required on both sides, marks of edges inside a sub-domain are dropped, and with -nosurf the boundary edges the user has not required are frozen. The vertices get the marks ridge, reference, boundary and required exactly from the special edges they belong to. Two triangles get the same sub-domain number exactly if they are linked without crossing an interface. Sides shared with quadrilaterals are frozen with their vertices. The result does not depend on the order of the traversal, and repeating the analysis changes no tag.", "quantifier": "all 2D triangle meshes with consistent adjacency, all initial tags and references, both modes (-opnbdy, -nosurf), with quadrilaterals, first or later call", "why_tests_cant": "The traversal order depends on the whole mesh; tests compare only final statistics on sample meshes.", "anchors": ["src/mmg2d/analys_2d.c: MMG2D_setadj"]}
{"id": "C84", "title": "The edges given by the user in 2D reach the triangles, and those that matter come back", "statement": "For every list of edges given by the user: every side of a triangle or quadrilateral that joins the end points of an edge gets its reference and tags (those of the first of these edges if there are several), every other side keeps its own; the only failure is a refusal of the allocator, and no access outside the table occurs. After the analysis and the final packing every edge of the user that lies on the outer boundary, separates two references or is required is among the output edges: between the same vertices, with its reference, and required if it was.", "quantifier": "all meshes of triangles and quadrilaterals, all lists of edges (with repetitions, in any direction, on no element at all), all growth histories of the table, all analyses and packings", "why_tests_cant": "The path goes through a hash table with growth, a traversal of the mesh and two renumberings; tests only look at a few files.", "anchors": ["src/mmg2d/hash_2d.c: MMG2D_assignEdge, MMG2D_pack", "src/mmg2d/analys_2d.c: MMG2D_setadj", "src/common/hash.c: MMG5_hashEdge, MMG5_hashGet"]}
{"id": "C85", "title": "Splitting an edge of a tetrahedral mesh cuts every tetrahedron around it and keeps the mesh valid", "statement": "For every valid tetrahedral mesh and every edge, interior or on the boundary, the split of the edge at a new vertex replaces every tetrahedron around the edge by exactly two, one with each end, and leaves the others alone. The adjacency of the result is symmetric and joins equal faces. Once the tests on lengths have passed the only failure is a refused allocation. Both sides of every face still agree on its reference and tags; every part of a boundary face has the data of that face; nothing is put on the new inner faces; no boundary record is shared; the two halves of the edge and the old edges keep tags and reference, and the new edges on a face get the tags of the face. When the vertex is inside the edge the two parts have together the volume of the tetrahedron, both positive, and no point is inside of two tetrahedra; so any sequence of insertions, collapses, swaps, relocations and splits keeps the mesh valid.", "quantifier": "all valid tetrahedral meshes, all edges, all numbers of tetrahedra around the edge, open and closed shells, all free slots for the new elements, all boundary data, all allocation answers, all sequences of operations", "why_tests_cant": "The function rewires a ring of any length in several passes that read entries already overwritten; a wrong link shows up only much later, for particular local numberings.", "anchors": ["src/mmg3d/split_3d.c: MMG5_split1b, MMG5_split1b_eltspl", "src/mmg3d/boulep_3d.c: MMG5_coquil"]}
{"id": "C86", "title": "Swapping an edge inside of a tetrahedral mesh keeps the mesh valid and improves it", "statement": "For every valid tetrahedral mesh and every interior edge for which the search finds a configuration, the swap replaces the n tetrahedra around the edge by the 2(n-2) tetrahedra that join each remaining face around the edge to the chosen vertex: none of them has the edge, all volumes are positive, no point is inside of two tetrahedra, adjacency is symmetric and joins equal faces, and boundary data and references of the domains are kept. Each new tetrahedron is better than the worst old one by the required factor. No tetrahedron with four boundary vertices is created and, in finite element mode, no edge between two boundary vertices. The vertex used for the swap is not left in the mesh, provided the ball of that vertex fits in the list. The only failure is a refused allocation; any sequence of swaps, splits, collapses, insertions and relocations keeps the mesh valid.", "quantifier": "all valid tetrahedral meshes, all edges, all numbers of tetrahedra around the edge, all quality functions positive only for positive volumes, all boundary data, all free slots, all allocation answers, all sequences of operations", "why_tests_cant": "The swap is a split followed by a collapse whose result is not checked: that the collapse cannot fail and gives positive volumes follows only from the tests made before on a mesh that is not yet split.", "anchors": ["src/mmg3d/swapgen_3d.c: MMG5_chkswpgen, MMG5_swpgen", "src/mmg3d/split_3d.c: MMG5_split1b", "src/mmg3d/colver_3d.c: MMG5_colver", "src/mmg3d/boulep_3d.c: MMG5_boulevolp"]}
{"id": "C87", "title": "Detection of sharp edges and of corners finds exactly those that the angle and the edges around the vertex define", "statement": "For every surface with consistent adjacency: after the detection an edge between two triangles (not parallel, not non-manifold) is a ridge, on both sides, exactly when the angle of its triangles exceeds the limit or the user gave it as ridge and the triangles are not in one plane; it is a reference edge exactly when it was one or the references of its triangles differ; all other data of the edge, and all other edges, are unchanged. Vertices are marked accordingly. A vertex that is looked at then becomes a corner exactly when it is an end of one special edge only, of more than two, or of two of the same kind that make an angle beyond the limit; it becomes required exactly when it has one or more than two, or a ridge and a reference edge. Nothing depends on the numbering of the triangles, and both searches end.", "quantifier": "all surfaces with consistent adjacency, all tags, all normals, positions and limits, all vertices with one fan of triangles around them, all lengths of the lists from 4", "why_tests_cant": "The marks are written by loops over the triangles that change the tags they read; which edge comes first, how the turn around the vertex begins and where the list is cut could all change the result, for some numbering.", "anchors": ["src/mmg3d/analys_3d.c: MMG5_setdhd, MMG5_singul", "src/mmgs/analys_s.c: setdhd, MMG5_singul", "src/common/boulep.c: MMG5_bouler"]}
{"id": "C88", "title": "Renumbering gives the same mesh with other numbers", "statement": "For every tetrahedral mesh, with free slots anywhere, and every order of the tetrahedra given by the partitioner, the renumbering ends, and the new mesh is the old one with other numbers: each tetrahedron is there once with its references and tags, each vertex of an element and each required vertex is there once with its position, metric and fields, elements have the same vertices as before, numbers run from 1 without holes, and the table for the user follows. The lists of free slots have exactly the slots after the last ones (but the very last slot). Without memory for the second table the tetrahedra are the same in another order and the vertices keep their numbers.", "quantifier": "all meshes whose elements have valid vertices, all sets of free slots, all orders given by the partitioner, all payloads", "why_tests_cant": "The tables are permuted in place by exchanging entries while the table of the new numbers, which has zeros for free slots, is changed by the same exchanges; that no entry is lost for any permutation is not something that examples can show. The library is an option of the build.", "anchors": ["src/mmg3d/librnbg_3d.c: MMG5_mmg3dRenumbering, MMG5_swapTet", "src/common/librnbg.c: MMG5_swapNod, MMG5_kPartBoxCompute"]}
{"id": "C89", "title": "Separation of the sub-domains of a 2D triangulation", "statement": "For every 2D triangulation with the bounding box and every set of edges given by the user, the separation of sub-domains gives two triangles the same reference exactly when a path of triangles that crosses no edge of the user joins them, the references run from 1, and 1 is the one of the outside. With more than one sub-domain the triangles removed are exactly those of the outside, otherwise exactly those with a vertex of the box. The triangles that remain are unchanged, their adjacency is symmetric and without link to a removed triangle, and the new border is made of edges of the user. With the option that keeps one sub-domain the triangles that remain are those of this sub-domain.", "quantifier": "all valid triangulations with a triangle at the last vertex of the box, all sets of edges, all values of the option", "why_tests_cant": "The regions come from a fill with a stack whose pops and restarts depend on the whole mesh; that it finds connected components exactly, for any shape, with any free slots, is a statement about all meshes and all paths.", "anchors": ["src/mmg2d/mmg2d2.c: MMG2D_markSD", "src/mmg2d/zaldy_2d.c: MMG2D_delElt"]}
{"id": "C90", "title": "Edges of a 3D mesh: from the user to the triangles and back", "statement": "For every set of boundary triangles and every list of edges given by the user, the transfer of edges gives every side of a triangle that lies on a given edge the tags and the reference of this edge, in either direction of its ends and whatever the order of the triangles; a side on no given edge and no non-manifold edge gets no tag and no reference; no side loses a tag (but for the mark of surfaces that are kept when this option is on) and none gets a tag that neither the given edge nor a side on the same ends has. Without given edges, sides that agree are kept as they are and the table answers for each of their edges with their reference and tags. After remeshing, the list of edges given back has each edge once, only edges on which a tetrahedron carries a mark, all of them, with a reference and the tags that one of these tetrahedra says, and the number of ridges is the number of those marked as ridge. All of this also when the table has to grow, or ends with an error when memory is refused.", "quantifier": "all triangles, adjacencies, tags, references, lists of edges (with repetitions), sizes of the table, answers of the allocator", "why_tests_cant": "What a side gets depends on a hash table with chains in shared slots, which grows during the insertions, and on the order of triangles; tests see a few meshes without collisions or growth at the wrong moment.", "anchors": ["src/mmg3d/hash_3d.c: MMG5_hNew, MMG5_hEdge, MMG5_hTag, MMG5_hGet, MMG5_hGeom", "src/mmg3d/libmmg3d.c: MMG3D_bdryBuild"]}
{"id": "C91", "title": "Insertion of a vertex when a 2D mesh is generated", "statement": "When a 2D mesh is generated from a set of points, each insertion of a point replaces some triangles around it by the triangles that join the sides of this region to the point. Whatever the region proposed by the circle test: the mesh stays a conforming triangulation with positive triangles that do not overlap and with mutual neighbours, it covers the same part of the plane, no vertex gets lost, triangles elsewhere do not change, all removed triangles are of the sub-domain of the starting one and the new ones keep it, each new triangle keeps the tag, reference and neighbour of the side it stands on. The list of the region stays within its array, and the table of edges is never read outside. A point that is not counted as inserted leaves the mesh unchanged, one that is counted is in the mesh as long as memory is not lacking. This holds for any number of insertions in any order.", "quantifier": "all triangulations, coordinates in any ordered field, points, starting triangles, circle tests, marks, numbers of new triangles, answers of the allocator, and all sequences of insertions", "why_tests_cant": "Overlaps appear only for special positions of the points and of the region (a region that pinches at a vertex, one with a hole); that these do not happen is a consequence of the test of areas and of the plane, which no finite set of point clouds shows.", "anchors": ["src/mmg2d/delone_2d.c: MMG2D_cavity, MMG2D_correction_iso, MMG2D_delone, MMG2D_hashEdgeDelone", "src/mmg2d/mmg2d2.c: MMG2D_insertpointdelone"]}
{"id": "C92", "title": "A solution written to a file and read again is the same solution", "statement": "Saving a metric, a level-set function, a displacement or several solutions at vertices to a solution file and loading this file on a mesh with the used vertices gives the same number of solutions, the same types and, at each used vertex, the same values up to the printed digits: unused vertices leave no gap, tensors come back in the order of the API, solutions at other entities do not disturb, and at vertices of ridges the metric is the one that the special storage stands for. Loading under the name of the mesh opens the file that was saved under this name, in the right mode (ASCII or binary). The same holds for binary files.", "quantifier": "all solutions (any number up to 100, any mixture of types), all sets of used vertices, all values, all printing and coding functions for numbers, mmg3d/mmgs and mmg2d, all names without point with each extension", "why_tests_cant": "Tests compare files with stored files or load one file of one kind; an exchange of two terms that is done on both sides, or a shift of one byte for each vertex in binary files, is seen only by comparing with the values that were given for all sizes and types.", "anchors": ["src/common/inout.c: MMG5_saveSolHeader, MMG5_loadSolHeader, MMG5_writeDoubleSol3D, MMG5_readDoubleSol3D, MMG5_chkMetricType", "src/mmg3d/inout_3d.c: MMG3D_saveSol, MMG3D_saveAllSols, MMG3D_loadSol, MMG3D_loadAllSols", "src/mmg2d/inout_2d.c: MMG2D_saveSol, MMG2D_saveAllSols, MMG2D_loadSol, MMG2D_loadAllSols, MMG2D_writeDoubleSol, MMG2D_readDoubleSol"]}
{"id": "C93", "title": "A Lagrangian motion keeps the mesh valid and moves the vertices by exactly the reported part of the displacement", "statement": "With a Lagrangian option, when the answer is success with a fraction tau of the motion done, 0 < tau <= 1, all elements have the required quality (so positive volume) and each vertex at which the displacement was given has moved by exactly tau times it; the whole displacement is done when the last step was a whole one. When the answer is a negative number, no vertex has moved and the list of invalid elements has exactly the elements that already the smallest step would make invalid. A vertex put on an edge during the motion moves with the edge. The displacement inside is computed on exactly the elements at most 20 layers from the moving boundary, comes back to the right vertices, is zero beyond, and the library gets each side of the moving boundary and of the border once, as many as announced.", "quantifier": "all meshes and displacements over ordered fields, all quality functions, all numbers of steps, all behaviours of the local remeshing and of the elasticity library that keep the quality and the given displacements", "why_tests_cant": "Tests with the elasticity library run few motions and look at the return code; the sum of the parts over dozens of steps with remeshing in between, the number of sides given to the library for an arbitrary topology, and the size of the list of invalid elements need an argument for all histories.", "anchors": ["src/common/mmg3.c: MMG5_dikmov", "src/mmg3d/mmg3d3.c: MMG5_chkmovmesh, MMG5_dispmesh, MMG5_mmg3d3, MMG5_spllag, MMG5_intdispvol", "src/mmg2d/mmg2d9.c: MMG2D_chkmovmesh, MMG2D_dispmesh, MMG2D_mmg2d9", "src/mmg3d/velextls_3d.c: MMG5_packLS, MMG5_unpackLS, MMG5_velextLS", "src/mmg2d/velextls_2d.c: MMG2D_packLS, MMG2D_unpackLS, MMG2D_velextLS"]}
{"id": "C94", "title": "Local changes of the surface remesher keep a closed or bordered surface conforming, oriented and with its marked edges", "statement": "When the surface remesher splits edges, swaps an edge or collapses an edge, the triangles still meet edge to edge with consistent orientation, no edge gets more than two triangles, the two halves of a split edge keep its tag and reference (and the new vertex gets them), new edges inside triangles are not marked, the other edges keep their marks on both sides, and a collapse removes exactly the triangles at the edge and the vertex. A refused or failed change leaves the surface as it was.", "quantifier": "all conforming triangle surfaces with any tags and references, all edges, all answers of the shape tests and of the memory allocation", "why_tests_cant": "Tests remesh a few surfaces and look at the return code or the size of the output; that the topological test of the collapse is sufficient, and that splitting all marked edges at once leaves no hanging vertex, are statements on all surfaces and all sets of edges; failures of the allocator and swaps onto an existing edge hardly occur in test data.", "anchors": ["src/mmgs/split_s.c: split1b, MMGS_split1, MMGS_split2, MMGS_split3", "src/mmgs/swapar_s.c: swapar", "src/mmgs/boulep_s.c: boulechknm", "src/mmgs/colver_s.c: chkcol, colver, colver3, colver2", "src/mmgs/mmgs1.c: anaelt, colelt, adpcol"]}
{"id": "C95", "title": "Required vertices, edges and triangles come out of the 2D remesher unchanged", "statement": "What the user has declared required is not touched by 2D remeshing: a required vertex stays in the mesh, at its place and required; a required edge stays an edge of the mesh with the same two ends and stays required, even when the triangle it belonged to is removed; a required triangle stays the same triangle, with its number, vertices and reference. This holds for every sequence of collapses, swaps, edge splits, pattern splits and relocations.", "quantifier": "all conforming 2D meshes with any tags, all finite sequences of the operations of the remeshing loops in any order, all answers of the tests of length and shape, all new positions", "why_tests_cant": "A test can remesh a few files and compare; that no order of operations ever loses a required edge depends on an invariant (marked in both triangles, with marked ends) that all operations have to keep, and is a statement on all histories.", "anchors": ["src/mmg2d/mmg2d1.c: MMG2D_anaelt, MMG2D_colelt, MMG2D_swpmsh, MMG2D_adpspl, MMG2D_adpcol, MMG2D_movtri", "src/mmg2d/split_2d.c: MMG2D_split1b, MMG2D_split1, MMG2D_split2, MMG2D_split3", "src/mmg2d/swapar_2d.c: MMG2D_swapar", "src/mmg2d/colver_2d.c: MMG2D_colver, MMG2D_colver3, MMG2D_colver2", "src/mmg2d/analys_2d.c: MMG2D_setadj"]}
{"id": "C96", "title": "The inner edges and faces given by the API are each inner edge or face exactly once", "statement": "After the number of inner edges (2D) or inner faces (3D) was asked, the indices from 1 to that number give every edge or face shared by two elements of the same reference that is not marked as boundary, each exactly once, and nothing else; the number is half the number of such sides of elements; the boundary entities of the mesh are not changed. It holds for the first call, and for later ones when assertions are not compiled.", "quantifier": "all meshes with correct neighbours and with marks equal on both sides of an edge or face, with or without boundary entities, with or without open-boundary mode, all sizes of the cells of the array", "why_tests_cant": "The count and the list are made by two loops that have to agree on every mesh; a test looks at some meshes, and the errors of the bound check only show at indices that a test does not use.", "anchors": ["src/mmg2d/libmmg2d_tools.c: MMG2D_Get_numberOfNonBdyEdges, MMG2D_Get_nonBdyEdge", "src/mmg3d/libmmg3d_tools.c: MMG3D_Get_numberOfNonBdyTriangles, MMG3D_Get_nonBdyTriangle", "src/common/inout.c: MMG5_saveEdge", "src/common/mmgcommon_private.h: myrealloc, MMG5_SAFE_RECALLOC"]}
{"id": "C97", "title": "Required vertices, edges and triangles come out of the surface remesher unchanged", "statement": "The surface analysis marks an edge as required in all triangles that have it, exactly if the user required it in one of them, and a vertex exactly if the user required it or one of its edges. After any sequence of pattern splits, edge splits, collapses, swaps and relocations of the surface remesher, a required vertex is in the mesh at its place, a required edge is an edge with the same two ends, and a required triangle is the same triangle with the same vertices, reference and number.", "quantifier": "all valid surface meshes, all histories of the loops of the surface remesher, all lengths, shapes and new positions; the triangles at a collapsed vertex form one fan, and at a pattern split the triangles of an edge agree on the required mark (shown after the analysis for all meshes and at any time on manifold ones)", "why_tests_cant": "A test sees that required entities survive one run; that no order of operations and no result of the geometric tests can lose one needs an invariant over all histories.", "anchors": ["src/mmgs/mmgs1.c: anaelt, adpspl, chkspl, colelt, adpcol, swpmsh, movtri", "src/mmgs/colver_s.c: chkcol, colver, colver3, colver2", "src/mmgs/hash_s.c: MMGS_bdryUpdate", "src/mmgs/analys_s.c: MMGS_setadj"]}
{"id": "C98", "title": "The command line of the 2D program is read as documented", "statement": "For every command line made of documented options with their arguments and of file names, in any order, the parameters set are exactly those of the options, one after the other, and an error stops the reading; the file names go to input, output, metric and solution as documented for each mode. No argument is read beyond the last one. Arguments that are no documented option are refused.", "quantifier": "all command lines, all behaviours of the setters and of the number readers of the C library", "why_tests_cant": "There are more orders of options and more kinds of wrong arguments than a test can try; the errors are at the end of the line and between neighbouring options.", "anchors": ["src/mmg2d/libmmg2d_tools.c: MMG2D_parsar, MMG2D_usage", "src/common/libtools.c: MMG5_mmgUsage, MMG5_paramUsage1", "src/mmg2d/mmg2d.c: main"]}
{"id": "C99", "title": "The file of local parameters written by -default can be read back", "statement": "The 2D program called with -default writes, for every reference carried by an edge and every reference carried by a triangle, exactly one line with the global sizes (one line for reference 0 if there is no such entity), and the number of lines in front. Read again, this file gives these sizes to exactly these references. More generally a file of lines in any order is read with the last line about a reference winning; and whatever the file, an accepted table has at most 200 entries, one for a kind and reference, no negative reference and positive sizes.", "quantifier": "all lists of references of edges and triangles, all sizes, all files as sequences of words and numbers, all behaviours of the conversion to int", "why_tests_cant": "The sets of references and the malformed files are unbounded; the failures are at more than 200 references, at negative ones and at files cut short.", "anchors": ["src/mmg2d/mmg2d.c: MMG2D_writeLocalParam, MMG2D_countLocalParamAtEdg, MMG2D_writeLocalParamAtEdg", "src/common/apptools.c: MMG5_Add_inode, MMG5_countLocalParamAtTri, MMG5_writeLocalParamAtTri", "src/mmg2d/libmmg2d_tools.c: MMG2D_parsop", "src/mmg2d/API_functions_2d.c: MMG2D_Set_localParameter, MMG2D_Set_iparameter"]}
{"id": "C100", "title": "Local parameters of the surface library stay inside their table and have the last value given", "statement": "After MMGS_Set_iparameter with the number of local parameters, any sequence of calls of MMGS_Set_localParameter and of new announcements writes only inside the table announced, refuses what does not fit, and leaves for every reference the values of the last valid call for it. The file of local parameters written by mmgs -default, read again, gives these sizes to exactly the references of the triangles; no file makes the table overflow; a file that cannot be read stops the program.", "quantifier": "all sequences of calls with any numbers, types, references and sizes; all files as sequences of words and numbers; all lists of references", "why_tests_cant": "A write one place after an allocated table often has no visible effect; the sequences of calls and the malformed files are unbounded.", "anchors": ["src/mmgs/API_functions_s.c: MMGS_Set_localParameter, MMGS_Set_iparameter", "src/mmgs/mmgs.c: MMGS_parsop, MMGS_writeLocalParam, main", "src/common/mmgcommon_private.h: MMG_FSCANF"]}
{"id": "C101", "title": "Around a vertex or an edge the strictest of the local parameters that apply are used", "statement": "For a regular vertex, a non-manifold or ridge edge, the swap of a boundary edge and a boundary vertex in the plane: if no local parameter applies to the elements around, the global values are used; otherwise the largest hmin, the smallest hmax and the smallest hausd among the local parameters that apply, whatever the order of the table and of the elements; and hmin is not above hmax.", "quantifier": "all tables of local parameters, all global values, all balls and shells (lists of references)", "why_tests_cant": "The result depends on the order of a table and of a ball and on flags carried from one loop to the next; tests have one or two parameters.", "anchors": ["src/mmg3d/tools_3d.c: MMG3D_localParamReg, MMG3D_localParamNm", "src/mmg3d/swap_3d.c: MMG5_chkswpbdy", "src/mmg2d/anisosiz_2d.c: MMG2D_defmetbdy_2d"]}
{"id": "C102", "title": "The report on edge lengths covers every edge of the mesh once", "statement": "The report on edge lengths printed before and after remeshing counts every edge of the mesh exactly once; its number of edges, mean, smallest and largest length (with the end points printed beside them) and its histogram are those of these edges; every edge is in the column whose bounds contain its length.", "quantifier": "all meshes (lists of elements with any vertices and lengths), all metrics through the lengths, all tables of bounds", "why_tests_cant": "A test compares the report with nothing; whether each edge of an arbitrary mesh is seen once, by a hash table or by adjacency, needs an argument over all meshes.", "anchors": ["src/mmg3d/quality_3d.c: MMG3D_computePrilen", "src/mmgs/quality_s.c: MMGS_prilen", "src/mmg2d/length_2d.c: MMG2D_prilen", "src/mmg3d/hash_3d.c: MMG5_hashPop"]}
{"id": "C103", "title": "Removing an edge from the edge table removes this edge only, and says whether it was there", "statement": "After any sequence of successful insertions, tags, value updates and lookups on a new edge table, any sequence of removals, insertions and lookups answers as a finite map on unordered pairs: a removal answers 1 exactly if the pair is in the table, the pair is then absent and every other pair keeps its value; no call reads or writes outside the table or runs forever.", "quantifier": "all sizes of the table, all histories of calls, all vertex numbers, all answers of the allocator", "why_tests_cant": "Removal moves cells within chains (first, middle, last cell of a bucket); which case happens depends on collisions of the hash function over unbounded histories.", "anchors": ["src/mmg3d/hash_3d.c: MMG5_hashPop", "src/common/hash.c: MMG5_hashEdge, MMG5_hashGet"]}
{"id": "C104", "title": "With -optim the size asked for at a vertex is the mean length of its edges", "statement": "When sizes are taken from the mesh (option -optim, isotropic), the size at each vertex of an element, before the bounds hmin and hmax are applied, is the mean of the lengths of the edges through this vertex; it does not depend on the order of the elements, lies between the shortest and the longest of these edges, and equals their common length if they all have the same.", "quantifier": "all meshes (lists of elements with any vertices, used or not), all symmetric distances, all vertices", "why_tests_cant": "Sums over arbitrary balls; a test with a regular mesh cannot see how often each edge is counted.", "anchors": ["src/mmg3d/libmmg3d_tools.c: MMG3D_doSol_iso", "src/mmgs/libmmgs_tools.c: MMGS_doSol_iso", "src/mmg2d/solmap_2d.c: MMG2D_doSol_iso"]}
{"id": "C105", "title": "The neighbours of a vertex of a triangulation, asked through the API, are all its neighbours, once each", "statement": "Asking the 2D or the surface library for the vertices adjacent to a vertex, given a triangle that holds it, lists exactly the vertices joined to it by an edge of the mesh, each once, whether the vertex is inside or on the border and whatever the triangle given; nothing is written beyond the table of the caller, and 0 is answered only if there are more neighbours than this table holds.", "quantifier": "all conforming triangulations, all vertices, all triangles given as start, all sizes of the table", "why_tests_cant": "Where the walk starts relative to the border and how many triangles lie on each side are arbitrary; the limits of the table are reached only with huge balls.", "anchors": ["src/mmg2d/libmmg2d_tools.c: MMG2D_Get_adjaVerticesFast, MMG2D_Get_adjaVertices", "src/mmgs/libmmgs_tools.c: MMGS_Get_adjaVerticesFast"]}
{"id": "C106", "title": "The tetrahedra of a triangle of the final mesh, asked through the API, are those that have it as a face", "statement": "After a run of the 3D library, asking for the tetrahedron of a triangle gives a tetrahedron of the mesh and a face of it with the three vertices of the triangle; asking for both tetrahedra gives in addition the other tetrahedron with this face, and zero exactly if there is none. Every triangle has an answer, and every face that has a triangle is the answer for exactly one of them.", "quantifier": "all meshes of tetrahedra and prisms, all references, preservation of internal triangles or not, all numbers of triangles", "why_tests_cant": "The link is one number left in each triangle by a loop that filters faces; whether it names the right face for every pattern of references, unused elements and prisms cannot be sampled.", "anchors": ["src/mmg3d/hash_3d.c: MMG5_bdryTria", "src/mmg3d/libmmg3d_tools.c: MMG3D_Get_tetFromTria, MMG3D_Get_tetsFromTria"]}
{"id": "C107", "title": "Vertices and tetrahedra added through the API are in the mesh as given", "statement": "Adding a vertex answers the number of a new vertex that has the given coordinates and reference; adding a tetrahedron answers, up to sign, the number of a new tetrahedron with the given vertices and reference, positively oriented unless flat, and the sign tells whether the given one had a positive volume. Zero is answered only if memory is refused or a vertex does not exist, and then the mesh does not change. Nothing else in the mesh changes, and the numbers answered follow each other.", "quantifier": "all meshes without deleted vertices and tetrahedra, all sequences of additions, all answers of the allocator, all coordinates and references", "why_tests_cant": "It depends on when the tables are full and by how much they grow between the calls; no list of tests covers all sequences of calls and answers of the allocator.", "anchors": ["src/mmg3d/API_functions_3d.c: MMG3D_Add_vertex, MMG3D_Add_tetrahedron", "src/mmg3d/zaldy_3d.c: MMG3D_newPt, MMG3D_newElt"]}
{"id": "C108", "title": "The check of a 3D mesh lists exactly the tetrahedra that are bad", "statement": "Checking a mesh with a bound on the quality and bounds on the edge lengths lists a tetrahedron if and only if its quality vanishes or is below the bound, or one of its edges is shorter or longer than the bounds, where qualities and lengths are those of the metric in the storage that the caller declares.", "quantifier": "all meshes of tetrahedra, all qualities and lengths, all bounds, all kinds of metric and storage", "why_tests_cant": "Edges are looked at in one of their tetrahedra only and the loop on the edges of a tetrahedron is left early; which tetrahedra are listed depends on the numbering of the whole mesh.", "anchors": ["src/mmg3d/libmmg3d_tools.c: MMG3D_mmg3dcheck, MMG3D_searchqua, MMG3D_searchlen"]}
{"id": "C109", "title": "A mesh to which vertices or tetrahedra were added through the API is accepted by the check of the data and read from first to last", "statement": "After additions through the API the check of the mesh data accepts the mesh if it accepted it before, and as many calls of the function that reads the next vertex as there are vertices read the vertices from the first to the last.", "quantifier": "all meshes, all sequences of additions, all numbers of vertices", "why_tests_cant": "Reading and checking share counters with the functions that set the size; what they do after additions depends on how many were made and when.", "anchors": ["src/mmg3d/API_functions_3d.c: MMG3D_Chk_meshData, MMG3D_Get_vertex, MMG3D_Get_tetrahedron, MMG3D_Add_vertex, MMG3D_Add_tetrahedron"]}

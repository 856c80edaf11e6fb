{
 "claims": [
  {
   "property": "C01",
   "status": "proved",
   "theorems": [
    "Verif.Serialize.C01_round_trip",
    "Verif.Serialize.C01_only_appends",
    "Verif.Serialize.C01_injective",
    "Verif.Serialize.C01_needs_small"
   ],
   "note": "All supported types, any buffer prefix and suffix. Vector lengths below 2^32 are required (C01_needs_small shows the hypothesis is needed)."
  },
  {
   "property": "C02",
   "status": "proved",
   "theorems": [
    "Verif.Serialize.C02_stream_round_trip",
    "Verif.Serialize.C02_stream_round_trip_at",
    "Verif.Serialize.C02_truncated_rejected",
    "Verif.Serialize.C02_corrupt_safe"
   ],
   "note": "Any list of typed values; truncation at any point makes the debug build abort."
  },
  {
   "property": "C03",
   "status": "partial",
   "theorems": [
    "Verif.Serialize.C03_replace_fails",
    "Verif.Serialize.C03_replace_partial",
    "Verif.Serialize.C03_vector_appends"
   ],
   "note": "The code appends to vectors instead of replacing them (C03_replace_fails); C03_replace_partial covers freshly constructed destinations, C03_vector_appends states the exact behaviour."
  },
  {
   "property": "C04",
   "status": "proved",
   "theorems": [
    "Verif.Mesh.C04_delete_consistent",
    "Verif.Mesh.C04_result_shape"
   ],
   "note": "Any dimension, any consistent mesh, any 0/1 mask keeping a cell; debug and release builds."
  },
  {
   "property": "C05",
   "status": "proved",
   "theorems": [
    "Verif.Mesh.C05_survivors_unchanged",
    "Verif.Mesh.C05_adjacency_unchanged"
   ],
   "note": "Cells in order with orientation and coordinates; adjacency between surviving cells."
  },
  {
   "property": "C06",
   "status": "proved",
   "theorems": [
    "Verif.Mesh.C06_no_orphans"
   ],
   "note": "No orphan faces or nodes; remaining faces and nodes are exactly the used ones."
  },
  {
   "property": "C07",
   "status": "proved",
   "theorems": [
    "Verif.Mesh.C07_two_step"
   ],
   "note": "Equality of the complete resulting meshes."
  },
  {
   "property": "C08",
   "status": "proved",
   "theorems": [
    "Verif.Mesh.C08_shared_lists",
    "Verif.Mesh.C08_domains_still_agree"
   ],
   "note": "Element-wise, and the two-domain agreement corollary."
  },
  {
   "property": "C09",
   "status": "partial",
   "theorems": [
    "Verif.Mesh.C09_boundary_lists_fails",
    "Verif.Mesh.C09_boundary_lists_untouched",
    "Verif.Mesh.C09_boundary_lists_partial"
   ],
   "note": "False of the code: boundary lists are not updated (C09_boundary_lists_fails). Proved: exact behaviour (untouched), and validity when nothing is deleted."
  },
  {
   "property": "C10",
   "status": "partial",
   "theorems": [
    "Verif.Editor.C10_delete_cells_partial",
    "Verif.Editor.C10_delete_cells_fails",
    "Verif.Editor.C10_bad_id_aborts"
   ],
   "note": "False of the code: any deleted cell before a kept one is an out-of-bounds write (C10_delete_cells_fails, general). Proved for deletions at the end of the cell list."
  },
  {
   "property": "C11",
   "status": "proved",
   "theorems": [
    "Verif.Mesh.C11_nodeCells",
    "Verif.Mesh.C11_cellToNodes",
    "Verif.Mesh.C11_converse"
   ],
   "note": "Both queries characterised and shown converse."
  },
  {
   "property": "C12",
   "status": "proved",
   "theorems": [
    "Verif.Mesh.C12_boundary_exact",
    "Verif.Mesh.C12_after_delete"
   ],
   "note": "Needs at least one boundary face with a node in debug builds (the code asserts it)."
  },
  {
   "property": "C13",
   "status": "proved",
   "theorems": [
    "Verif.Mesh.C13_clear",
    "Verif.Mesh.C13_empty_iff",
    "Verif.Mesh.C13_empty_ignores_comm"
   ],
   "note": "empty() ignores the communication lists; C13_empty_ignores_comm records it."
  },
  {
   "property": "C14",
   "status": "proved",
   "theorems": [
    "Verif.Internal.C14_remove_exact"
   ],
   "note": "Any element type, any strictly increasing in-range positions, both builds; old-to-new map included."
  },
  {
   "property": "C15",
   "status": "partial",
   "theorems": [
    "Verif.Internal.C15_ascending",
    "Verif.Internal.C15_descending_release",
    "Verif.Internal.C15_descending_partial",
    "Verif.Internal.C15_descending_fails",
    "Verif.Internal.C15_empty_fails"
   ],
   "note": "Ascending tables proved in full. Descending tables: release build proved; in debug builds any value that occurs in the table aborts or reads table[-1] (C15_descending_fails), values not in the table are fine (C15_descending_partial). Empty tables are read out of bounds."
  },
  {
   "property": "C16",
   "status": "proved",
   "theorems": [
    "Verif.Internal.C16_dense_numbering"
   ],
   "note": "Any history of keys from an empty map."
  },
  {
   "property": "C17",
   "status": "proved",
   "theorems": [
    "Verif.Internal.C17_hashEdge",
    "Verif.Internal.C17_signed_ids",
    "Verif.Internal.C17_equal_ids_abort"
   ],
   "note": "hashEdge, positiveID and the ~ convention on unbounded integers."
  },
  {
   "property": "C18",
   "status": "partial",
   "theorems": [
    "Verif.PointMap.C18_history",
    "Verif.PointMap.C18_release_total",
    "Verif.PointMap.C18_clusters",
    "Verif.PointMap.C18_have_complete",
    "Verif.PointMap.C18_have_partial",
    "Verif.PointMap.C18_have_3d_fails"
   ],
   "note": "Any history, dimension, non-negative tolerance and build. have() is exact in one and two dimensions (C18_have_partial); in 3D it is wrong for every tolerance (C18_have_3d_fails). Integers are unbounded."
  },
  {
   "property": "C19",
   "status": "partial",
   "theorems": [
    "Verif.Points.C19_undefined_fails",
    "Verif.Points.C19_interleave_partial",
    "Verif.Points.C19_debug_partial",
    "Verif.Points.C19_distinct_partial",
    "Verif.Points.C19_wide_fails",
    "Verif.Points.C19_3d_fails"
   ],
   "note": "By the language rules no call has defined behaviour (C19_undefined_fails, general). On a wrapping platform: 2D keys interleave the low 16 bits and are injective below 2^15; they collide beyond 16 bits (C19_wide_fails) and in 3D (C19_3d_fails)."
  },
  {
   "property": "C20",
   "status": "partial",
   "theorems": [
    "Verif.Internal.C20_closed",
    "Verif.Internal.C20_gap_partial",
    "Verif.Internal.C20_gap_fails"
   ],
   "note": "Closed polygons with at least three sides proved in full. Open chains: exactly half of the cases are right (C20_gap_partial); in all others a debug build aborts and a release build returns a wrong loop (C20_gap_fails)."
  },
  {
   "property": "C21",
   "status": "partial",
   "theorems": [
    "Verif.Hash.C21_partial",
    "Verif.Hash.C21_fails",
    "Verif.Hash.C21_undefined_fails"
   ],
   "note": "With shifts that wrap, the numbering is proved for the classes of the hash (column and parity of the row) instead of quantization cells. Distinct generators in the same column are merged (C21_fails), and by the standard the call is undefined for every nonempty input."
  },
  {
   "property": "C22",
   "status": "partial",
   "theorems": [
    "Verif.Geom.C22_facets_partial",
    "Verif.Geom.C22_out_of_range",
    "Verif.Geom.C22_holes_fails",
    "Verif.Geom.C22_all_used_partial"
   ],
   "note": "Facets proved in full for every PLC and point list; holes keep ids of the original point list, so any hole with a vertex off the facets changes (C22_holes_fails, general). C22_all_used_partial: nothing changes when the facets use every point."
  },
  {
   "property": "C23",
   "status": "partial",
   "theorems": [
    "Verif.Geom.C23_box2",
    "Verif.Geom.C23_box3",
    "Verif.Geom.C23_makeBox2_partial",
    "Verif.Geom.C23_makeBox3_fails"
   ],
   "note": "plc_box proved in 2D and 3D (exact arithmetic). makeBoxPLC: 2D proved for result objects without holes; 3D is not implemented (C23_makeBox3_fails)."
  },
  {
   "property": "C24",
   "status": "proved",
   "theorems": [
    "Verif.Geom.C24_circle",
    "Verif.Geom.C24_circle_area",
    "Verif.Geom.C24_too_few"
   ],
   "note": "Exact real arithmetic. Also the enclosed area."
  },
  {
   "property": "C25",
   "status": "proved",
   "theorems": [
    "Verif.Geom.C25_cell2",
    "Verif.Geom.C25_cell3"
   ],
   "note": "2D needs the cell to be listed as a closed loop of at least three two-node faces; facets start at the second face. 3D for every consistent mesh."
  },
  {
   "property": "C26",
   "status": "partial",
   "theorems": [
    "Verif.Geom.C26_circumcenter",
    "Verif.Geom.C26_circumcenter2d",
    "Verif.Geom.C26_circumcenter3d",
    "Verif.Geom.C26_circumcenter3d_flat",
    "Verif.Geom.C26_triangle3d_partial",
    "Verif.Geom.C26_tiny_triangle_fails"
   ],
   "note": "circumcenter, circumcenter2d/3d proved equidistant for all non-degenerate inputs (exact arithmetic). triangleCircumcenter3d: proved when the collinearity test accepts the triangle (C26_triangle3d_partial); its absolute tolerance refuses every triangle with a side below 1e-5 (C26_tiny_triangle_fails)."
  },
  {
   "property": "C27",
   "status": "proved",
   "theorems": [
    "Verif.Geom.C27_area"
   ],
   "note": "Exact arithmetic in any ordered field; cells closed loops, interior faces used in opposite directions; any reference point."
  },
  {
   "property": "C28",
   "status": "proved",
   "theorems": [
    "Verif.Geom.C28_polygon",
    "Verif.Geom.C28_translate",
    "Verif.Geom.C28_listing",
    "Verif.Geom.C28_polyhedron",
    "Verif.Geom.C28_polyhedron_result",
    "Verif.Geom.C28_translate3",
    "Verif.Geom.C28_listing3"
   ],
   "note": "2D and 3D, exact arithmetic: fan formula from any reference point, translation, order of the faces. 3D needs faces that the face routine accepts (see C54)."
  },
  {
   "property": "C29",
   "status": "partial",
   "theorems": [
    "Verif.Geom.C29_segment_partial",
    "Verif.Geom.C29_segment_near",
    "Verif.Geom.C29_short_segment_fails",
    "Verif.Geom.C29_nearestPoint",
    "Verif.Geom.C29_no_facets"
   ],
   "note": "The closest point is on the segment and optimal for segments of length at least 1e-10, within 5e-11 of optimal always; nearestPoint returns a facet point and its distance, optimal over all facets and holes under the same length condition. Missing: short segments, where the code returns the midpoint (C29_short_segment_fails)."
  },
  {
   "property": "C30",
   "status": "partial",
   "theorems": [
    "Verif.Geom.C30_sound_partial",
    "Verif.Geom.C30_exact",
    "Verif.Geom.C30_complete",
    "Verif.Geom.C30_parallel",
    "Verif.Geom.C30_near_miss_fails"
   ],
   "note": "Complete for every tolerance; exact (iff) at tolerance 0; sound up to the tolerance. Missing: soundness with the default positive tolerance, refuted by C30_near_miss_fails; parallel segments never reported (C30_parallel)."
  },
  {
   "property": "C31",
   "status": "proved",
   "theorems": [
    "Verif.Geom.C31_crossings",
    "Verif.Geom.C31_region",
    "Verif.Geom.C31_even_odd",
    "Verif.Geom.C31_start",
    "Verif.Geom.C31_direction",
    "Verif.Geom.C31_translate",
    "Verif.Geom.C31_convex",
    "Verif.Geom.C31_convex_cw",
    "Verif.Geom.C31_triangle",
    "Verif.Geom.C31_box",
    "Verif.Geom.C31_cut"
   ],
   "note": "Any list of vertices. C31_even_odd is the full claim for polygons of any shape: the answer is the parity of the sides crossed on the way to any point beyond all the corners, and such a way exists from every point off the boundary; C31_crossings says how it changes along a segment, C31_region that it is constant where no side is. Also boxes exactly (half-open), triangles and convex polygons, and cutting a polygon along a chord."
  },
  {
   "property": "C32",
   "status": "proved",
   "theorems": [
    "Verif.Geom.C32_within",
    "Verif.Geom.C32_self_fails",
    "Verif.Geom.C32_touch_fails",
    "Verif.Geom.C32_intersect"
   ],
   "note": "Exact arithmetic. Polygons are any numbering of the corners and sides of a strictly convex counter-clockwise loop. convexWithin is the strict version: contact with the boundary gives false (C32_self_fails, C32_touch_fails record this)."
  },
  {
   "property": "C33",
   "status": "partial",
   "theorems": [
    "Verif.Geom.C33_hull_partial",
    "Verif.Geom.C33_snap",
    "Verif.Geom.C33_grid_partial",
    "Verif.Geom.C33_line",
    "Verif.Geom.C33_coarse_fails",
    "Verif.Geom.C33_order_fails"
   ],
   "note": "Exact integer arithmetic after quantization. Proved (strict convexity, counter-clockwise order, every point on or left of every facet, facets a closed loop over input ids) for inputs whose grid coordinates are equal or more than one apart and that the library's collinearity test does not flatten. Missing: neighbouring cells, where the set's comparator is not an order (C33_order_fails) and the outcome is undefined; inputs the test wrongly flattens (C33_coarse_fails, general for dx > 1)."
  },
  {
   "property": "C34",
   "status": "partial",
   "theorems": [
    "Verif.Geom.C34_plane_partial",
    "Verif.Geom.C34_plane_parallel_fails",
    "Verif.Geom.C34_plane_inside_fails",
    "Verif.Geom.C34_sphere",
    "Verif.Geom.C34_circle",
    "Verif.Geom.C34_circle_outside_fails",
    "Verif.Geom.C34_box_partial",
    "Verif.Geom.C34_box_axis_fails",
    "Verif.Geom.C34_box_outside_fails"
   ],
   "note": "Exact arithmetic, unit directions. Spheres and circles from inside: proved. Planes: proved for rays not parallel to the plane; false for parallel rays (C34_plane_parallel_fails, C34_plane_inside_fails). Boxes: proved for rays that start strictly inside and are parallel to no side; false for axis-parallel rays (C34_box_axis_fails) and for rays from outside (C34_box_outside_fails). Circles from outside: C34_circle_outside_fails."
  },
  {
   "property": "C35",
   "status": "proved",
   "theorems": [
    "Verif.Geom.C35_box",
    "Verif.Geom.C35_global",
    "Verif.Geom.C35_unbounded",
    "Verif.Geom.C35_split",
    "Verif.Geom.C35_expand",
    "Verif.Geom.C35_expand_global",
    "Verif.Geom.C35_boundary"
   ],
   "note": "Exact comparison (min and max do not round). Processes are a list of coordinate lists; MPI_Allreduce is the fold of the values of all processes."
  },
  {
   "property": "C36",
   "status": "partial",
   "theorems": [
    "Verif.Geom.C36_quantize",
    "Verif.Geom.C36_monotone",
    "Verif.Geom.C36_stable",
    "Verif.Geom.C36_ends",
    "Verif.Geom.C36_boundary",
    "Verif.Geom.C36_bounds",
    "Verif.Geom.C36_flat_fails",
    "Verif.Geom.C36_outside_fails",
    "Verif.Geom.C36_below_fails",
    "Verif.Geom.C36_3d_debug_fails",
    "Verif.Geom.C36_3d_partial",
    "Verif.Geom.C36_3d_bounds_fails",
    "Verif.Geom.C36_point"
   ],
   "note": "2D proved in full for both constructors (range, error, monotonicity, stability, ends), with 32-bit conversion as undefined behaviour outside. The 3D class: proved for the boundary constructor without assertions; false with assertions compiled in (it always aborts) and for the bounds constructor, whose length ignores z. A boundary of zero extent is undefined behaviour."
  },
  {
   "property": "C37",
   "status": "partial",
   "theorems": [
    "Verif.Hash.C37_hash_partial",
    "Verif.Hash.C37_collision_fails",
    "Verif.Hash.C37_unhash_partial",
    "Verif.Hash.C37_unhash_fails",
    "Verif.Hash.C37_outer_fails",
    "Verif.Hash.C37_undefined_fails",
    "Verif.Hash.C37_3d_undefined_fails",
    "Verif.Hash.C37_3d_collision_fails"
   ],
   "note": "With shifts that wrap, the 2D hash is characterised exactly (column and parity of the row) and x comes back to half a cell. The property fails: rows of equal parity collide, y is lost on unhashing, the outer flag is lost, and by the language standard the shifts are undefined (2D above the second row, 3D always)."
  },
  {
   "property": "C38",
   "status": "partial",
   "theorems": [
    "Verif.Readout.C38_boost",
    "Verif.Readout.C38_boost_closed",
    "Verif.Readout.C38_boost_shared",
    "Verif.Readout.C38_boost_mesh",
    "Verif.Readout.C38_unbounded_fails",
    "Verif.Readout.C38_clip_partial",
    "Verif.Readout.C38_orphans_fails"
   ],
   "note": "Boost read-out in full for bounded cells (C38_boost*), composed with fillTessellation (C38_boost_mesh). Unbounded cells are undefined behaviour (C38_unbounded_fails). Clipping: exact up to the node map's tolerance of 2 (C38_clip_partial); every run that rebuilds cells around an orphan reads out of bounds (C38_orphans_fails)."
  },
  {
   "property": "C39",
   "status": "proved",
   "theorems": [
    "Verif.Geom.C39_fill",
    "Verif.Geom.C39_uses",
    "Verif.Geom.C39_consistent",
    "Verif.Geom.C39_refill_fails"
   ],
   "note": "Filling an empty mesh, with one cell per generator and ids in range (QTOK). C39_refill_fails records that filling a mesh that already has face cells appends to them."
  },
  {
   "property": "C40",
   "status": "proved",
   "theorems": [
    "Verif.Readout.C40_compact",
    "Verif.Readout.C40_keeps_used",
    "Verif.Readout.C40_abort_iff"
   ],
   "note": "For every numbering with ids in range; the debug build also stops when an edge is used more than twice, exactly then (C40_abort_iff)."
  },
  {
   "property": "C41",
   "status": "partial",
   "theorems": [
    "Verif.Snap.C41_release_partial",
    "Verif.Snap.C41_checked",
    "Verif.Snap.C41_success",
    "Verif.Snap.C41_tie_fails",
    "Verif.Snap.C41_3d_fails"
   ],
   "note": "Exact arithmetic, one process. Missing: a PLC point with a boundary node exactly at the tolerance may stay without a node although another one is closer (C41_tie_fails). 3D is not implemented in the code (C41_3d_fails)."
  },
  {
   "property": "C42",
   "status": "partial",
   "theorems": [
    "Verif.Csg.C42_partial",
    "Verif.Csg.C42_3d",
    "Verif.Csg.C42_reversed_fails"
   ],
   "note": "3D: proved in full for every convex polygon and plane, with orientation (C42_3d). 2D: sides and cover proved for every segment and line; orientation refuted for every cut segment."
  },
  {
   "property": "C43",
   "status": "proved",
   "theorems": [
    "Verif.Csg.C43_twice",
    "Verif.Csg.C43_exchange",
    "Verif.Csg.C43_twice_3d",
    "Verif.Csg.C43_exchange_3d"
   ],
   "note": "2D and 3D, every tree."
  },
  {
   "property": "C44",
   "status": "proved",
   "theorems": [
    "Verif.Csg.C44_clip",
    "Verif.Csg.C44_clipTo",
    "Verif.Csg.C44_clip_3d",
    "Verif.Csg.C44_clipTo_3d",
    "Verif.Csg.C44_halfspace"
   ],
   "note": "2D: every tree and every list of segments, also of no length. 3D: every tree and every list of convex or degenerate polygons; every triangle is one, and so are its pieces (triangle_polyL, polySplit)."
  },
  {
   "property": "C45",
   "status": "proved",
   "theorems": [
    "Verif.Csg.C45_build",
    "Verif.Csg.C45_add",
    "Verif.Csg.C45_build_3d",
    "Verif.Csg.C45_add_3d"
   ],
   "note": "2D and 3D, every list of segments or of convex or degenerate polygons, building from scratch and adding to any tree."
  },
  {
   "property": "C46",
   "status": "partial",
   "theorems": [
    "Verif.Par.C46_owner",
    "Verif.Par.C46_partition_partial",
    "Verif.Par.C46_empty_process_fails"
   ],
   "note": "C46_owner: all distributions, empty processes included. C46_partition_partial: release builds without restriction, debug builds when every process has a generator; C46_empty_process_fails shows the restriction is real. Messages and cell numbers must fit 32 bits. The serial tessellator is any function returning a consistent mesh with one cell per generator."
  },
  {
   "property": "C47",
   "status": "proved",
   "theorems": [
    "Verif.Par.C47_agree"
   ],
   "note": "Every pair of processes that both return a mesh, debug and release. Agreement on neighbours, shared nodes and shared faces, by serial number and by coordinates."
  },
  {
   "property": "C48",
   "status": "partial",
   "theorems": [
    "Verif.Exch.C48_exchange_partial",
    "Verif.Exch.C48_identical_partial",
    "Verif.Exch.C48_no_neighbour_fails",
    "Verif.Exch.C48_applies_to_C47"
   ],
   "note": "Proved for every number of processes, every consistent sharing pattern and every interleaving: no error, no deadlock, termination, coordinates of the lowest-ranked sharer. Missing: processes without a neighbour, for which the code takes the address of the first element of an empty vector (C48_no_neighbour_fails). C48_applies_to_C47 shows that the meshes of SerialDistributedTessellator meet the hypothesis."
  },
  {
   "property": "C49",
   "status": "partial",
   "theorems": [
    "Verif.Exch.C49_default_fails",
    "Verif.Exch.C49_removal_partial"
   ],
   "note": "Fails with the default arguments for every halo mesh with a neighbour (C49_default_fails). With communication info every access is in range (C66_lists) and exactly the neighbours with nothing shared are removed (C49_removal_partial)."
  },
  {
   "property": "C50",
   "status": "partial",
   "theorems": [
    "Verif.Check.C50_ok_iff",
    "Verif.Check.C50_same_partial",
    "Verif.Check.C50_report_fails",
    "Verif.Check.C50_applies_to_C66"
   ],
   "note": "C50_ok_iff is the full second half: the check ends with ok on all processes iff the data fit together (with matching collective operations in all cases). The first half, the same text on all processes, holds unless two neighbours list different numbers of nodes and the sender's index is past the receiver's table (C50_same_partial, C50_report_fails). C50_applies_to_C66: meshes derived by the distributed tessellator pass."
  },
  {
   "property": "C51",
   "status": "proved",
   "theorems": [
    "Verif.Editor.C51_matching",
    "Verif.Editor.C51_removed_are_short",
    "Verif.Editor.C51_clean_mesh_unchanged"
   ],
   "note": "2D, one process (several: C84). Any symmetric non-negative distance and symmetric collinearity test; the mesh must have a boundary made of closed curves. Matching, shortness, corners, boundary nodes that stay on the boundary, maximality, and the exact resulting mesh."
  },
  {
   "property": "C52",
   "status": "partial",
   "theorems": [
    "Verif.Points.C52_point2",
    "Verif.Points.C52_point3",
    "Verif.Points.C52_fuzzy_partial",
    "Verif.Points.C52_fuzzy_fails"
   ],
   "note": "Point2/Point3 orders proved in full. The fuzzy comparator is a strict weak order for zero fuzz only (C52_fuzzy_fails, for every other fuzz)."
  },
  {
   "property": "C53",
   "status": "partial",
   "theorems": [
    "Verif.Editor.C53_valid_mesh_partial",
    "Verif.Editor.C53_three_sides_fails",
    "Verif.Editor.C53_again_fails"
   ],
   "note": "Consistency, proper edges, closed loops and half of the sides are proved; three sides per cell and a closed boundary are false of the code (C53_three_sides_fails, C53_again_fails)."
  },
  {
   "property": "C54",
   "status": "partial",
   "theorems": [
    "Verif.Geom.C54_volume",
    "Verif.Geom.C54_degenerate_face_fails",
    "Verif.Geom.C54_short_edge_fails"
   ],
   "note": "Sum over cells proved for closed cells with proper faces. Faces whose first two nodes are closer than 1e-5, or whose other nodes are collinear with them, abort or read out of bounds (C54_degenerate_face_fails, C54_short_edge_fails)."
  },
  {
   "property": "C55",
   "status": "partial",
   "theorems": [
    "Verif.Geom.C55_sound_partial",
    "Verif.Geom.C55_horizontal_fails"
   ],
   "note": "Every appended point is a crossing reported for some facet, the old result is kept and the count is the number appended. Missing: completeness, refuted for horizontal segments (C55_horizontal_fails): at most one crossing per facet list."
  },
  {
   "property": "C56",
   "status": "partial",
   "theorems": [
    "Verif.Geom.C56_cloud_partial",
    "Verif.Geom.C56_cloud_2d",
    "Verif.Geom.C56_three_points_fails",
    "Verif.Geom.C56_two_points_fails"
   ],
   "note": "Exact in 2D for at least two points, and in general for points from index Dimension on. Missing: 3D point 2 is never tested and two points are read out of bounds (C56_three_points_fails, C56_two_points_fails)."
  },
  {
   "property": "C57",
   "status": "partial",
   "theorems": [
    "Verif.Geom.C57_complete_partial",
    "Verif.Geom.C57_sound",
    "Verif.Geom.C57_short_fails",
    "Verif.Geom.C57_complete2_partial",
    "Verif.Geom.C57_sound2",
    "Verif.Geom.C57_short2_fails"
   ],
   "note": "Complete for segments with squared length above the tolerance, sound for all. Missing: short segments, refuted by C57_short_fails."
  },
  {
   "property": "C58",
   "status": "partial",
   "theorems": [
    "Verif.Geom.C58_complete",
    "Verif.Geom.C58_sound_partial",
    "Verif.Geom.C58_near_fails"
   ],
   "note": "Complete; sound up to about 1.5e-5 times the side length. Missing: exact soundness, refuted for every slanted side (C58_near_fails)."
  },
  {
   "property": "C59",
   "status": "partial",
   "theorems": [
    "Verif.Geom.C59_shape_partial",
    "Verif.Geom.C59_within_partial",
    "Verif.Geom.C59_facets_ignored",
    "Verif.Geom.C59_start_fails"
   ],
   "note": "C59_shape_partial: loops of any shape stored as consecutive vertices starting at their first vertex, with any holes, decided by the even-odd rule for points farther from the sides than the boundary tolerance; C59_within_partial: convex loops, also on the boundary. Missing: other numberings, where the code ignores the facets (C59_facets_ignored) or reads past the end (C59_start_fails)."
  },
  {
   "property": "C60",
   "status": "partial",
   "theorems": [
    "Verif.Geom.C60_within_partial",
    "Verif.Geom.C60_zero_normal_fails",
    "Verif.Geom.C60_intersect_facets_only",
    "Verif.Geom.C60_disjoint_partial",
    "Verif.Geom.C60_edge_fails",
    "Verif.Geom.C60_normal_fails",
    "Verif.Geom.C60_within_fails"
   ],
   "note": "False of the code in both directions (C60_zero_normal_fails is general; C60_edge_fails, C60_normal_fails, C60_within_fails are literal). Exactly what is decided: C60_intersect_facets_only. Proved for facets whose normal is computed correctly: C60_within_partial, C60_disjoint_partial."
  },
  {
   "property": "C61",
   "status": "proved",
   "theorems": [
    "Verif.Geom.C61_valid2",
    "Verif.Geom.C61_valid3",
    "Verif.Geom.C61_empty"
   ],
   "note": "valid and empty of PLC, 2D and 3D."
  },
  {
   "property": "C62",
   "status": "proved",
   "theorems": [
    "Verif.Geom.C62_triangle",
    "Verif.Geom.C62_tet"
   ],
   "note": "Exact arithmetic over any linearly ordered field."
  },
  {
   "property": "C63",
   "status": "partial",
   "theorems": [
    "Verif.Csg.C63_union_partial",
    "Verif.Csg.C63_subtract_partial",
    "Verif.Csg.C63_intersect_partial",
    "Verif.Csg.C63_holes_fails",
    "Verif.Csg.C63_reversed_fails"
   ],
   "note": "Convex polygons, all three operations. Refuted for polygons that are not convex (an L shape) and for holes (general)."
  },
  {
   "property": "C64",
   "status": "partial",
   "theorems": [
    "Verif.Csg.C64_disjoint_fails",
    "Verif.Csg.C64_orientation_fails",
    "Verif.Csg.C64_chain_fails"
   ],
   "note": "Refuted: orientation, chained operations, and the intersection of any two convex polygons that are apart."
  },
  {
   "property": "C65",
   "status": "partial",
   "theorems": [
    "Verif.Exch.C65_generators_partial",
    "Verif.Exch.C65_owners_partial",
    "Verif.Exch.C65_no_neighbour_fails"
   ],
   "note": "Proved for every interleaving. Missing: processes without a neighbour (C65_no_neighbour_fails). The symmetry of the neighbour lists, which the code asserts, is a hypothesis here and follows from C77_symmetric."
  },
  {
   "property": "C66",
   "status": "partial",
   "theorems": [
    "Verif.Exch.C66_lists",
    "Verif.Exch.C66_sharing",
    "Verif.Exch.C66_faces",
    "Verif.Exch.C66_after_C65",
    "Verif.Exch.C66_key2",
    "Verif.Exch.C66_key3_fails",
    "Verif.Exch.C66_ties_fails"
   ],
   "note": "Proved in two dimensions and for nodes in general: C66_lists for one process, C66_sharing across processes (giving the hypothesis of C48), C66_faces, C66_after_C65. Missing: that the serial tessellations of the halos agree (they are computed by external tessellators), and faces in three dimensions, where the library reads past the end of the face (C66_key3_fails). With two nodes of equal quantised position the order is unspecified (C66_ties_fails)."
  },
  {
   "property": "C67",
   "status": "partial",
   "theorems": [
    "Verif.Csg.C67_union_partial",
    "Verif.Csg.C67_subtract_partial",
    "Verif.Csg.C67_intersect_partial",
    "Verif.Csg.C67_returns_fails",
    "Verif.Csg.C67_undefined_fails",
    "Verif.Csg.C67_any_union_partial",
    "Verif.Csg.C67_any_subtract_partial",
    "Verif.Csg.C67_any_intersect_partial",
    "Verif.Csg.C67_any_union_boundary_partial",
    "Verif.Csg.C67_any_subtract_boundary_partial",
    "Verif.Csg.C67_any_intersect_boundary_partial"
   ],
   "note": "Union, difference and intersection of any two convex solids, with any facets (planar convex polygons with any number of corners), are proved to terminate and to return the right polygons for the given tolerance; of any two solids of any shape (not convex, with cavities, in several parts, touching or overlapping in any way) for every tolerance that is small enough, with the direction the polygons face, and with the polygons proved to be the boundary of the union, the difference and the intersection. All up to the list of polygons; the conversion of the list to a PLC is refuted for every input (undefined behaviour of the hash in 3D). Missing: solids that are not convex and have features as thin as the tolerance."
  },
  {
   "property": "C68",
   "status": "proved",
   "theorems": [
    "Verif.Tri.C68_dual",
    "Verif.Tri.C68_mesh"
   ],
   "note": "C68_dual is about nodes, edges and cells, C68_mesh about the mesh read out of them. What Triangle returns is an input; the hypotheses say that the triangles are counterclockwise, surround every generator, and (only with assertions) that no edge has three triangles. That the centres are in range is a hypothesis here and proved in C70."
  },
  {
   "property": "C69",
   "status": "partial",
   "theorems": [
    "Verif.Tri.C69_direction_fails",
    "Verif.Tri.C69_direction_partial",
    "Verif.Tri.C69_length_fails"
   ],
   "note": "The order is proved (C69_direction_partial: one closed loop from the lowest-numbered node towards its lower-numbered neighbour). Opposite signs are refuted (C69_direction_fails: both cells of a face can have it with a positive sign, and do whenever the first two triangles have an edge between generators in common), and so is positive length (C69_length_fails: cocircular points)."
  },
  {
   "property": "C70",
   "status": "partial",
   "theorems": [
    "Verif.Tri.C70_tessellate_partial",
    "Verif.Tri.C70_one_place_fails",
    "Verif.Tri.C70_left_out_fails"
   ],
   "note": "C70_tessellate proves the claim for all point sets in general use. It fails for generators that are all at one place, such as a single generator (C70_one_place_fails: division by zero, converted to an integer), and for generators that the triangulation leaves out because they round to the same grid point as another (C70_left_out_fails: a debug build stops, a release build returns an empty cell). That the library Triangle returns a Delaunay triangulation is a hypothesis."
  },
  {
   "property": "C71",
   "status": "proved",
   "theorems": [
    "Verif.Tri.C71_box"
   ],
   "note": "Hypotheses as in C70; in particular, that the library Triangle returns a Delaunay triangulation."
  },
  {
   "property": "C72",
   "status": "partial",
   "theorems": [
    "Verif.Driver.C72_bounded_partial",
    "Verif.Driver.C72_box_partial",
    "Verif.Tri.C72_degenerate_partial",
    "Verif.Tri.C72_merged_fails"
   ],
   "note": "C72_degenerate_partial proves that the result is the Voronoi mesh of the first generator of each class of equal hash and that the map gives the cell of the class. C72_merged_fails: generators far apart on a vertical line share a hash and so a cell. Inherits what is missing in C21 and C70. C72_bounded_partial and C72_box_partial: the versions in a PLC or rectangle call tessellate (C73) with the reduced generators."
  },
  {
   "property": "C73",
   "status": "partial",
   "theorems": [
    "Verif.Driver.C73_bounded_partial",
    "Verif.Driver.C73_success_partial",
    "Verif.Driver.C73_orphans_fails",
    "Verif.Driver.C73_box",
    "Verif.Driver.C73_order_fails"
   ],
   "note": "C73_bounded_partial: for any tessellator, if every cell meets the boundary in one polygon that contains its generator and these fit together (GoodRings), the result is a consistent mesh with exact boundary lists whose cells are these polygons up to merging of vertices at most 2 grid steps apart, and snapping moves boundary nodes only; with assertions the alternative is an abort while snapping. C73_success_partial: no abort, every PLC point a node and every boundary node on the PLC, if the outer vertices fit the PLC. C73_box: the rectangle version is the PLC version. C73_orphans_fails: no mesh is returned when the boundary divides a cell. C73_order_fails: facets listed out of loop order give another polygon. Missing: Boost.Polygon is a parameter."
  },
  {
   "property": "C74",
   "status": "partial",
   "theorems": [
    "Verif.CApi.C74_export",
    "Verif.CApi.C74_import_partial",
    "Verif.CApi.C74_roundtrip_partial",
    "Verif.CApi.C74_lost_fails",
    "Verif.CApi.C74_hull_fails",
    "Verif.CApi.C74_shared_fails"
   ],
   "note": "C74_export: every mesh with lists of the right lengths is exported, and the C arrays describe it. C74_import_partial and C74_roundtrip_partial: reading it back gives the mesh except for the convex hull, if no face has ~0 as its second cell. C74_lost_fails: such a face comes back with one cell, because ~0 = -1 also means no cell. C74_hull_fails: the hull never comes back, and a stale hull stays in the C object. C74_shared_fails: lists of shared nodes that do not match the neighbours are written beyond a block or read unwritten."
  },
  {
   "property": "C75",
   "status": "partial",
   "theorems": [
    "Verif.CApi.C75_safe_partial",
    "Verif.CApi.C75_empty_fails",
    "Verif.CApi.C75_iff",
    "Verif.CApi.C75_print_fails"
   ],
   "note": "False of the code. C75_safe_partial: safe for all sequences in which the object holds a mesh whenever it is cleared or freed, and then leak-free iff no mesh is put into an object that holds one. C75_empty_fails: every other sequence with meshes that have faces is undefined (new then free, clear then free, clear twice). C75_iff states both. C75_print_fails: both printing functions read unwritten memory for every argument. malloc is assumed to succeed; the two blocks of a C PLC are one block in the model."
  },
  {
   "property": "C76",
   "status": "proved",
   "theorems": [
    "Verif.CApi.C76_history",
    "Verif.CApi.C76_invalid",
    "Verif.CApi.C76_nodes",
    "Verif.CApi.C76_holes"
   ],
   "note": "C76_history for all valid histories, C76_invalid for the first invalid call, C76_nodes and C76_holes for the queries. int and size_t are unbounded."
  },
  {
   "property": "C77",
   "status": "partial",
   "theorems": [
    "Verif.Nbr.C77_exact",
    "Verif.Nbr.C77_symmetric",
    "Verif.Nbr.C77_overlap",
    "Verif.Nbr.C77_adjacent_partial",
    "Verif.Nbr.C77_some",
    "Verif.Nbr.C77_exchange",
    "Verif.Nbr.Ex.C77_hidden_fails"
   ],
   "note": "2D. Exact characterisation, symmetry, overlap, nonemptiness and the use in the exchange of generators are proved. Completeness for touching cells is proved when both cells or neither are hidden inside the hulls of their processes; the remaining case is false of the code (C77_hidden_fails)."
  },
  {
   "property": "C78",
   "status": "partial",
   "theorems": [
    "Verif.Nbr.C78_local",
    "Verif.Nbr.C78_cells_partial",
    "Verif.Nbr.C78_serial",
    "Verif.Nbr.C78_cover",
    "Verif.Nbr.C78_disjoint",
    "Verif.Nbr.C78_sharing_partial",
    "Verif.Nbr.C78_exchange_partial",
    "Verif.Nbr.Ex.C78_hidden_fails"
   ],
   "note": "2D. Cells, order, node coordinates, cover, disjointness, sharing and the final exchange are proved for the composed program. Missing: distributions where a process misses a neighbour because the touching cell is hidden inside its hull; there the cells of two processes overlap (C78_hidden_fails). C78_sharing and C78_exchange assume distinct keys of shared nodes and faces, as C66 requires."
  },
  {
   "property": "C79",
   "status": "partial",
   "theorems": [
    "Verif.Hull3.C79_collision_fails",
    "Verif.Hull3.C79_partial",
    "Verif.Hull3.C79_defined",
    "Verif.Hull3.C79_repeats_fails",
    "Verif.Hull3.C79_undefined_fails"
   ],
   "note": "On platforms with wrapping shifts C79_partial: the result is the convex hull if the points have different hashes and each is in the plane of any three others or at least n/1e8 away from it (C79's tolerance is absolute; separated_int gives integer points). C79_defined: the call ends with a result or a failed assertion for all points. C79_repeats_fails: with a repeated point the result is not the hull. C79_undefined_fails: by the language standard every call is undefined, because a 32-bit number is shifted by 42. Exact arithmetic."
  },
  {
   "property": "C80",
   "status": "partial",
   "theorems": [
    "Verif.Silo.C80_2d_partial",
    "Verif.Silo.C80_3d_partial",
    "Verif.Silo.C80_same_file_2d",
    "Verif.Silo.C80_same_file_3d",
    "Verif.Silo.C80_facecells_fails",
    "Verif.Silo.C80_conn_fails",
    "Verif.Silo.C80_lengths_fails",
    "Verif.Silo.C80_tags_fails",
    "Verif.Silo.C80_edge_fields_fails",
    "Verif.Silo.C80_empty_cell_fails"
   ],
   "note": "C80_2d_partial, C80_3d_partial: the file describes nodes, faces or rings, cells, boundary, hull and fields; C80_same_file_2d/3d: the mesh can be rebuilt from it. Not held: the second cell of each face (C80_facecells_fails, C80_conn_fails), right lengths in conn (C80_lengths_fails), tag names (C80_tags_fails), edge fields in 3D (C80_edge_fields_fails); an empty 2D cell is undefined (C80_empty_cell_fails)."
  },
  {
   "property": "C81",
   "status": "partial",
   "theorems": [
    "Verif.Silo.C81_partial",
    "Verif.Silo.C81_iff",
    "Verif.Silo.C81_shared_file_fails",
    "Verif.Silo.C81_names_fails",
    "Verif.Silo.C81_directory_fails",
    "Verif.Silo.C81_file_name",
    "Verif.Silo.C81_cycle"
   ],
   "note": "C81_partial: with one file per process and the master file in the data directory every mesh is reached; C81_iff: in no other case. C81_shared_file_fails: a shared file keeps only the last process (it is opened with truncation). C81_names_fails: too few names if the files do not divide the processes. C81_directory_fails: the 3D writer puts the master file elsewhere. C81_file_name: the exact names of the files; C81_cycle: different cycles give different names."
  },
  {
   "property": "C82",
   "status": "partial",
   "theorems": [
    "Verif.Oogl.C82_3d_partial",
    "Verif.Oogl.C82_2d_partial",
    "Verif.Oogl.C82_2d_fails",
    "Verif.Oogl.C82_holes_fails"
   ],
   "note": "C82_3d_partial, C82_2d_partial: points and outer facets are read back. C82_2d_fails: two coordinates per vertex are written where the format has three. C82_holes_fails: the facets of holes are written but not counted."
  },
  {
   "property": "C83",
   "status": "partial",
   "theorems": [
    "Verif.Silo.C83_2d_partial",
    "Verif.Silo.C83_3d_partial",
    "Verif.Silo.C83_describes_2d_partial",
    "Verif.Silo.C83_describes_3d_partial",
    "Verif.Silo.C83_plain",
    "Verif.Silo.C83_hull_fails",
    "Verif.Silo.C83_leak_fails"
   ],
   "note": "C83_2d_partial, C83_3d_partial: the file is that of the C++ writer for the mesh without its hull, names stand for what is given last, and exactly the tags whose name comes again leak. C83_describes_2d_partial/3d: hence it describes the mesh. C83_plain: the function without tags. Not held: the hull (C83_hull_fails), freeing (C83_leak_fails)."
  },
  {
   "property": "C84",
   "status": "partial",
   "theorems": [
    "Verif.Editor.C84_clean_together_partial",
    "Verif.Editor.C84_no_neighbour_fails",
    "Verif.Editor.C84_lifetime_fails",
    "Verif.Editor.C84_several_neighbours_fails",
    "Verif.Editor.C84_several_neighbours_release_fails",
    "Verif.Editor.C84_boundary_fails"
   ],
   "note": "C84_clean_together_partial: processes with exactly one neighbour each and an MPI library that copies small messages at once: no failure, no deadlock, a bounded number of steps, a result independent of the order, the merges exactly described, both sides alike. Missing, and false of the code: a process without neighbours (C84_no_neighbour_fails), with several (C84_several_neighbours_fails, C84_several_neighbours_release_fails), libraries that do not copy (C84_lifetime_fails), boundary nodes that stay (C84_boundary_fails)."
  },
  {
   "property": "C85",
   "status": "partial",
   "theorems": [
    "Verif.Simplify.C85_simplify_partial",
    "Verif.Simplify.C85_holes_fails",
    "Verif.Simplify.C85_orientation_fails",
    "Verif.Simplify.C85_short_sides_fails"
   ],
   "note": "Proved for exact arithmetic, points in the box of the hash that are equal if their hash values are, and polygons whose sides and turns the tolerance resolves. C85_simplify_partial: the function returns, with the corners of the polygon at which it turns, in order and once, the same curve and the same area up to the sign. The property fails as stated: holes are always lost (C85_holes_fails), the area changes its sign if the first facet runs against the order of the points (C85_orientation_fails), and with sides shorter than the root of the tolerance the function aborts or does not return (C85_short_sides_fails). The wrapping shift of uniquePoints is assumed, as in C21. Not modelled: rounding. The 3D version is C89."
  },
  {
   "property": "C86",
   "status": "partial",
   "theorems": [
    "Verif.Props.C86_exactinit",
    "Verif.Props.C86_orient2d_partial",
    "Verif.Props.C86_orient2d_decides_partial",
    "Verif.Props.C86_collinear_fails",
    "Verif.Props.C86_orient2d_padded",
    "Verif.Props.C86_uninitialised_orient2d",
    "Verif.Props.C86_wrong_sign_fails",
    "Verif.Props.C86_flat_fails",
    "Verif.Props.C86_exact_fails",
    "Verif.Props.C86_exact_padded",
    "Verif.Props.C86_orient2dfast",
    "Verif.Props.C86_uninitialised_fast",
    "Verif.Props.C86_orient2dfast_fails"
   ],
   "note": "After exactinit the sign is right whenever orient2d returns, for all inputs; it returns for all points with exact differences or with an area above 30 eps^2 of its products, and for all points if the element read past the end of an array is some number, whichever (padded). The same for orient2dexact, which always makes that read; orient2dfast is within 5 eps of its products. Fails: the library never calls exactinit and then orient2d is orient2dfast, the plain rounded determinant, with wrong signs for every precision; the last stage reads past the end of its arrays. Exponent range unbounded in the model."
  },
  {
   "property": "C87",
   "status": "proved",
   "theorems": [
    "Verif.Props.C87_two_sum",
    "Verif.Props.C87_two_diff",
    "Verif.Props.C87_fast_two_sum",
    "Verif.Props.C87_two_product",
    "Verif.Props.C87_two_product_uninitialised_fails",
    "Verif.Props.C87_expansion_sum"
   ],
   "note": "All pairs of numbers, every precision from 6 bits (1 or 3 for the sums, 20 for the expansions), for Two_Product after exactinit; without exactinit (as in the library) its error is always zero. Exponent range unbounded in the model."
  },
  {
   "property": "C88",
   "status": "partial",
   "theorems": [
    "Verif.Canned.C88_cylinder_partial",
    "Verif.Canned.C88_cylinder_collision_fails",
    "Verif.Canned.C88_cylinder_noshift_fails",
    "Verif.Canned.C88_sphere_points",
    "Verif.Canned.C88_sphere_partial",
    "Verif.Canned.C88_sphere_collision_fails",
    "Verif.Canned.C88_sphere_noshift_fails",
    "Verif.Canned.C88_one_ring_fails",
    "Verif.Canned.C88_undefined_fails",
    "Verif.Canned.C88_zero_radius_fails"
   ],
   "note": "On platforms with wrapping shifts: if the hashes of the points differ (and, for spheres, the points are separated), the result is the convex hull, which lies between two cylinders (radius and radius cos(pi/n)) or balls (radius and radius (1 - 7/n^2)). Missing: if two hashes agree the result is never the hull (C88_cylinder_collision_fails, C88_sphere_collision_fails), which is always so on a platform where the shift by 42 bits leaves nothing; by the standard every call is undefined (C88_undefined_fails)."
  },
  {
   "property": "C89",
   "status": "partial",
   "theorems": [
    "Verif.Simplify3.C89_simplify3_partial",
    "Verif.Simplify3.C89_orientation_fails",
    "Verif.Simplify3.C89_order_fails",
    "Verif.Simplify3.C89_annulus_fails",
    "Verif.Simplify3.C89_pinch_fails",
    "Verif.Simplify3.C89_holes_fails",
    "Verif.Simplify3.C89_tiny_fails",
    "Verif.Simplify3.C89_small_fails",
    "Verif.Simplify3.C89_flats"
   ],
   "note": "C89_simplify3_partial: for convex facets that are large and whose angles are sharp enough for the tolerance (Resolved3), whenever a debug build returns, the facets fall into groups in one plane, one new facet has the corners at which the outline of its group turns, the same vector area up to the sign and with the sign if the outline is convex, the volume is the same if all outlines are, whatever touches the first facet of a group and faces in its direction is in this group or an earlier one, and the points are those in use, each once. False in full: closed surfaces smaller than the tolerance abort a debug build and give an empty PLC or undefined behaviour otherwise (C89_tiny_fails, C89_small_fails, for all such surfaces), a facet is turned over when the second corner is reflex (C89_orientation_fails), which facets are joined depends on the numbering (C89_order_fails), rings abort (C89_annulus_fails), a facet can come by a point twice (C89_pinch_fails), the holes are dropped (C89_holes_fails). C89_flats: on a closed surface that falls into four convex flat parts or more, in each of which all the facets touch the first one, the call returns in debug and release builds alike, with one facet for each part, the same vector areas and the same volume. Missing: parts whose facets do not all touch the first one, for which the outcome depends on the numbering."
  },
  {
   "property": "C90",
   "status": "partial",
   "theorems": [
    "Verif.BoostGeo.C90_boolean_partial",
    "Verif.BoostGeo.C90_queries",
    "Verif.BoostGeo.C90_reduce_partial",
    "Verif.BoostGeo.C90_holes_fails",
    "Verif.BoostGeo.C90_empty_fails"
   ],
   "note": "Proved for all PLCs made of closed loops (with holes) and all non-empty answers without holes. Fails for every answer with a hole (abort in debug, wrong boundary in release) and for empty answers (abort in debug). Boost.Geometry is an arbitrary function."
  },
  {
   "property": "C91",
   "status": "partial",
   "theorems": [
    "Verif.BoostGeo.C91_clip_several",
    "Verif.BoostGeo.C91_clip_partial",
    "Verif.BoostGeo.C91_shared_fails",
    "Verif.BoostGeo.C91_outside_fails"
   ],
   "note": "Proved when one piece alone touches the point, or there is one piece. Fails for every point on two pieces (one is lost) and for points on none of several (abort, or a read past the end). Boost.Geometry is an arbitrary function."
  },
  {
   "property": "C92",
   "status": "proved",
   "theorems": [
    "Verif.Poly.C92_vertex",
    "Verif.Poly.C92_edge",
    "Verif.Poly.C92_boundary",
    "Verif.Poly.C92_inside",
    "Verif.Poly.C92_convex",
    "Verif.Poly.C92_overlap_fails"
   ],
   "note": "C92_boundary assumes that the point is on at most one side, which is so in every simple polygon; without that C92_edge is the exact rule, and C92_overlap_fails shows that overlapping sides cancel."
  },
  {
   "property": "C93",
   "status": "partial",
   "theorems": [
    "Verif.Poly.C93_closest",
    "Verif.Poly.C93_parallel_fails",
    "Verif.Poly.C93_project_partial",
    "Verif.Poly.C93_project_fails",
    "Verif.Poly.C93_last_fails",
    "Verif.Poly.C93_distance_fails",
    "Verif.Poly.C93_nearest_fails"
   ],
   "note": "Proved: closestIntersection (C93_closest) for edges not parallel to the segment. Missing, and false of the code: edges parallel to the segment (C93_parallel_fails), projection to edges that are not horizontal (C93_project_fails, for every slanted edge) and to the last edge (C93_last_fails), distances (C93_distance_fails), and nearestEdge, nearestEdgePosition and project(point), which read past the end for every polygon (C93_nearest_fails)."
  },
  {
   "property": "C94",
   "status": "partial",
   "theorems": [
    "Verif.QC.C94_history",
    "Verif.QC.C94_degeneracy_fails",
    "Verif.QC.C94_initialize",
    "Verif.QC.C94_disc",
    "Verif.QC.C94_project",
    "Verif.QC.C94_sphere_fails",
    "Verif.QC.C94_flat_fails",
    "Verif.QC.C94_overflow_fails",
    "Verif.QC.C94_quantize",
    "Verif.QC.C94_separates",
    "Verif.QC.C94_roundtrip",
    "Verif.QC.C94_modified",
    "Verif.QC.C94_boundary",
    "Verif.QC.C94_boundary3_fails",
    "Verif.QC.C94_expand",
    "Verif.QC.C94_expands",
    "Verif.QC.C94_origin_fails",
    "Verif.QC.C94_stale_fails",
    "Verif.QC.C94_mpi_fails",
    "Verif.QC.C94_two_fails",
    "Verif.QC.C94_expand_mpi",
    "Verif.QC.C94_inner",
    "Verif.QC.C94_inner_quantize"
   ],
   "note": "Proved for every dimension: initialize does not depend on the history of the object (C94_history); it returns with a cube that has all points in its interior and the ball in it (C94_initialize); quantize, separation and round trip (C94_quantize, C94_separates, C94_roundtrip, C94_modified); expand covers (C94_expand, C94_expands). In 2D the points are in the disc, rays project to the circle and the PLC is the box (C94_disc, C94_project, C94_boundary). False of the code: the degeneracy setter is ignored (C94_degeneracy_fails), points with equal first coordinate abort (C94_flat_fails), in 3D the sphere leaves points out and five of the six facets are degenerate (C94_sphere_fails, C94_boundary3_fails), expanding pulls in the origin so that the grid is too small (C94_origin_fails), leaves the PLC as it was (C94_stale_fails), with MPI the ball leaves the box (C94_mpi_fails), with two boxes a quantized point may be refused (C94_two_fails), a spacing too fine is undefined behaviour (C94_overflow_fails)."
  },
  {
   "property": "C95",
   "status": "partial",
   "theorems": [
    "Verif.Cells1d.C95_cells",
    "Verif.Cells1d.C95_sort",
    "Verif.Cells1d.C95_sorted",
    "Verif.Cells1d.C95_few_fails",
    "Verif.Cells1d.C95_repeated_fails",
    "Verif.Cells1d.C95_outside_fails"
   ],
   "note": "Proved for every collinear set of different generators inside the circle by more than the tolerance. False outside those conditions: fewer than two generators read out of bounds, a repeated generator aborts (or gives faces of length zero), and generators outside the circle give flat cells."
  },
  {
   "property": "C96",
   "status": "partial",
   "theorems": [
    "Verif.Errors.C96_delivery",
    "Verif.Errors.C96_all",
    "Verif.Errors.C96_null_fails",
    "Verif.Errors.C96_delaunay",
    "Verif.Errors.C96_continue_fails"
   ],
   "note": "Delivery is proved for all histories (C96_delivery, C96_all), and exactly when computeDelaunay reports and returns (C96_delaunay). False: with a handler that returns the tessellator goes on without triangles, and aborts in debug builds or returns empty cells (C96_continue_fails); a null handler from C is followed in release builds (C96_null_fails)."
  },
  {
   "property": "C97",
   "status": "partial",
   "theorems": [
    "Verif.Errors.C97_dimension",
    "Verif.Errors.C97_unbounded",
    "Verif.Errors.C97_box",
    "Verif.Errors.C97_plc",
    "Verif.Errors.C97_plc_dimension_fails",
    "Verif.Errors.C97_mesh_dimension_fails",
    "Verif.Errors.C97_name_fails"
   ],
   "note": "The mesh is described for all three functions. False: the name is a pointer to a destroyed text, for every tessellator (C97_name_fails); a PLC of the other dimension is a null pointer (C97_plc_dimension_fails), and a mesh object of the other dimension keeps its wrong dimension (C97_mesh_dimension_fails)."
  },
  {
   "property": "C98",
   "status": "partial",
   "theorems": [
    "Verif.Props.C98_exactinit",
    "Verif.Props.C98_orient3d_partial",
    "Verif.Props.C98_orient3d_decides_partial",
    "Verif.Props.C98_incircle_partial",
    "Verif.Props.C98_incircle_decides_partial",
    "Verif.Props.C98_insphere_partial",
    "Verif.Props.C98_insphere_decides_partial",
    "Verif.Props.C98_orient3dfast",
    "Verif.Props.C98_incirclefast",
    "Verif.Props.C98_inspherefast",
    "Verif.Props.C98_uninitialised_fails",
    "Verif.Props.C98_scale",
    "Verif.Props.C98_orient3d_exact_partial",
    "Verif.Props.C98_orient3d_lattice_partial",
    "Verif.Props.C98_orient3d_full_fails",
    "Verif.Props.C98_orient3d_last_fails",
    "Verif.Props.C98_incircle_own_partial",
    "Verif.Props.C98_incircle_on_circle_fails",
    "Verif.Props.C98_insphere_own_partial",
    "Verif.Props.C98_insphere_on_sphere_fails"
   ],
   "note": "Proved for all points and every precision from 10 bits: what the first stage returns has the right sign (stated geometrically: volume, circle, sphere), the first stage decides unless the determinant is below 15, 21 or 34 units of roundoff of the products it is made of, and orient3dfast, incirclefast and inspherefast are within 9, 12 and 17 units. With the adaptive parts of the code: every number that incircle and insphere return has the right sign; orient3d always returns with the right sign on a lattice of 2^(p/2) steps in each direction, and for all points whose differences need no rounding it returns the right sign if it returns; scale_expansion_zeroelim is exact. Missing: the second and third test of orient3dadapt for points whose differences need rounding. That they always return fails: incircle and insphere have undefined behaviour for every choice of points on one circle or sphere (on_circle_fails, on_sphere_fails), orient3d for doubles with exact differences (full_fails) and with inexact ones (last_fails). C98_uninitialised_fails: the library never calls exactinit, and without it orient3d returns a positive number for points of negative volume, for every precision."
  },
  {
   "property": "C99",
   "status": "partial",
   "theorems": [
    "Verif.Py.C99_coords2",
    "Verif.Py.C99_coords3",
    "Verif.Py.C99_z2",
    "Verif.Py.C99_faces_partial",
    "Verif.Py.C99_faces_fails",
    "Verif.Py.C99_zone2",
    "Verif.Py.C99_zone3",
    "Verif.Py.C99_cellToNodes"
   ],
   "note": "Coordinates, z in 2D, 2D rings and 3D zones proved for all meshes with at most 2^31 nodes; node numbers from 2^31 on come out negative (C99_faces_fails)."
  },
  {
   "property": "C100",
   "status": "partial",
   "theorems": [
    "Verif.Py.C100_coords_partial",
    "Verif.Py.C100_coords_fails",
    "Verif.Py.C100_box_partial",
    "Verif.Py.C100_box_short",
    "Verif.Py.C100_box_long_fails",
    "Verif.Py.C100_hull_partial",
    "Verif.Py.C100_write2_partial",
    "Verif.Py.C100_write3_partial",
    "Verif.Py.C100_empty_fails",
    "Verif.Py.C100_short_fails"
   ],
   "note": "Proved for well-formed arguments. Tuples of the wrong length are merged silently (C100_coords_fails), corners that are too long are cut (C100_box_long_fails), a field without values or with too few values is undefined behaviour (C100_empty_fails, C100_short_fails)."
  },
  {
   "property": "C101",
   "status": "partial",
   "theorems": [
    "Verif.Nbr.C101_copy",
    "Verif.Nbr.C101_history",
    "Verif.Nbr.C101_boundary",
    "Verif.Nbr.C101_holes_fails",
    "Verif.Nbr.C101_cells_partial"
   ],
   "note": "History independence, the dispatches and the copy of a PLC are proved for all inputs (the copy in any dimension). That the processes end up with the right cells is proved for convex regions without holes in two dimensions under the condition of C78 on hidden cells; the search of neighbours ignores holes (C101_holes_fails)."
  },
  {
   "property": "C102",
   "status": "partial",
   "theorems": [
    "Verif.Props.C102_clip_partial",
    "Verif.Props.C102_touching_fails",
    "Verif.Props.C102_outside_fails",
    "Verif.Props.C102_self_fails",
    "Verif.Props.C102_self_partial"
   ],
   "note": "Proved for a generator in the cell and the domain and pieces that do not meet themselves: the cell has the generator, and nothing is lost if one piece only has it. Fails: with the generator in two pieces the first is lost; a cell outside the domain stays whole; a ring that meets itself elsewhere than in its first point is not mended (abort, or returned as it is), and of one that meets itself in its first point one loop is lost. Boost.Geometry is assumed right."
  },
  {
   "property": "C103",
   "status": "partial",
   "theorems": [
    "Verif.Driver3.C103_checked_fails",
    "Verif.Driver3.C103_unchecked_fails",
    "Verif.Driver3.C103_silent_fails",
    "Verif.Driver3.C103_degenerate_fails",
    "Verif.Driver3.C103_degenerate_box_fails",
    "Verif.Driver3.C103_degenerate_silent_fails"
   ],
   "note": "False of the code, for every input: with assertions no call returns, without them every call that returns leaves the mesh empty, and calls without boundary or in a boundary around the generators do return. tessellateDegenerate returns the right classes of generators, but for a mesh without cells. Nothing of the positive statement is proved since it never holds."
  },
  {
   "property": "C104",
   "status": "partial",
   "theorems": [
    "Verif.Props.C104_add",
    "Verif.Props.C104_same_id",
    "Verif.Props.C104_nodeEdges",
    "Verif.Props.C104_edgeFaces",
    "Verif.Props.C104_faceCells",
    "Verif.Props.C104_faces_partial",
    "Verif.Props.C104_backwards_fails",
    "Verif.Props.C104_position_partial",
    "Verif.Props.C104_position_flat_fails",
    "Verif.Props.C104_position_flat_z",
    "Verif.Props.C104_assertValid_fails",
    "Verif.Props.C104_assertValid_aborts_fails"
   ],
   "note": "Numbering and inverse maps are proved in full. Partial because of the code: assertValid accepts no mesh with a face or a generator (it counts over an empty range), a face of one edge named backwards is undefined behaviour, and in a box that is flat in x or y the nodes are moved off the box."
  },
  {
   "property": "C105",
   "status": "partial",
   "theorems": [
    "Verif.Props.C105_topology_partial",
    "Verif.Props.C105_assertions",
    "Verif.Props.C105_on_line_fails"
   ],
   "note": "Proved for rings that surround their generators, in either direction, for all sizes and for any antisymmetric orientation test, and that a checked build accepts the result exactly under its stated conditions. Where the generator lies on the line of a side the side comes out backwards (C105_on_line_fails). The code has no caller and does not compile against Tessellation, which has no infNodes and infFaces."
  },
  {
   "property": "C106",
   "status": "partial",
   "theorems": [
    "Verif.Props.C106_through_fails",
    "Verif.Props.C106_reported_partial"
   ],
   "note": "False: a horizontal segment through any box loses its second crossing (C106_through_fails). Proved: no call on a box aborts, what is reported is met, ascending and on the side, and nothing is reported only if nothing is met."
  },
  {
   "property": "C107",
   "status": "partial",
   "theorems": [
    "Verif.Props.C107_plane",
    "Verif.Props.C107_space",
    "Verif.Props.C107_undo",
    "Verif.Props.C107_subscript",
    "Verif.Props.C107_negative_fails",
    "Verif.Props.C107_negative_partial",
    "Verif.Props.C107_coarsen_fails",
    "Verif.Props.C107_coarsen_partial",
    "Verif.Props.C107_division_undefined"
   ],
   "note": "Sum, difference, multiple, division of multiples and subscripts are proved, with the exact conditions of definedness. Negation loses the index (C107_negative_fails) and division merges the two cells at zero (C107_coarsen_fails); coordinates that are not negative are coarsened properly."
  },
  {
   "property": "C108",
   "status": "partial",
   "theorems": [
    "Verif.Props.C108_corners_partial",
    "Verif.Props.C108_erased_fails",
    "Verif.Props.C108_rectangle_fails",
    "Verif.Props.C108_long_facets_partial",
    "Verif.Props.C108_short_facets_fails",
    "Verif.Props.C108_holes_fails",
    "Verif.Props.C108_area_partial"
   ],
   "note": "False: at the tolerance 1 that the code passes, every polygon without an acute interior angle loses all its corners (C108_erased_fails, C108_rectangle_fails); a polygon of facets within the tolerance vanishes whatever its extent (C108_short_facets_fails); holes are dropped (C108_holes_fails). Proved: which points are left exactly, in which order, and that they form a closed loop; and that with an exact three-point test in place of the library's the area would be kept (C108_area_partial), so that the fault is in the test."
  },
  {
   "property": "C109",
   "status": "partial",
   "theorems": [
    "Verif.Props.C109_boundary_partial",
    "Verif.Props.C109_reused_fails",
    "Verif.Props.C109_order_fails",
    "Verif.Props.C109_rings"
   ],
   "note": "Rings of cells are proved in full. Boundaries are proved for facets that follow each other and an empty polygon. Facets of the same boundary in another order give a ring that crosses itself, unnoticed (C109_order_fails); a polygon that is not empty is appended to (C109_reused_fails)."
  },
  {
   "property": "C110",
   "status": "partial",
   "theorems": [
    "Verif.Props.C110_others",
    "Verif.Props.C110_single_partial",
    "Verif.Props.C110_each_partial",
    "Verif.Props.C110_lost_fails",
    "Verif.Props.C110_each_lost_fails",
    "Verif.Props.C110_neighborhood_fails",
    "Verif.Props.C110_no_neighbor_fails",
    "Verif.Props.C110_snap",
    "Verif.Props.C110_many_partial"
   ],
   "note": "Proved: the number of cells, the cells beside no orphan, the exact polygon of the only neighbor in terms of the union and the three-point test, for any number of orphans that do not meet at a cell, what each of several neighbors gets from the tessellation of the neighborhood, and where a vertex may be moved. False: the area is lost when the union has no acute angle, and an orphan without a shared point is dropped. With several neighbors the tessellation is a parameter, so nothing is said on the shapes of its cells."
  }
 ]
}
{"id": "C01", "title": "Serialize/deserialize round trip", "statement": "Serializing any supported value (arithmetic value, Point2/Point3, vector, nested vector, PLC, ReducedPLC) onto the end of any buffer and deserializing from that position into a freshly constructed object gives back an equal value, leaves the read cursor exactly after the bytes written, and never touches the bytes before or after.", "quantifier": "every value of every supported type whose container sizes fit in 32 bits, every prior buffer content and every trailing content", "why_tests_cant": "A test round-trips a handful of literals; the claim is about all nesting shapes, all lengths, and arbitrary surrounding bytes.", "anchors": ["src/polytope_serialize.hh: serialize, deserialize, Serializer<...>", "src/Point.hh: Serializer<Point2>, Serializer<Point3>"]}
{"id": "C02", "title": "Message streams decode to exactly the sequence that was encoded", "statement": "If a sender serializes any sequence of objects of any mixture of types into one buffer and the receiver deserializes the same sequence of types, it recovers the sequence and consumes the whole buffer; a buffer that has been cut short anywhere is never accepted as a complete message (the debug build aborts instead of returning a value).", "quantifier": "every finite sequence of typed values and every strict prefix of their encoding", "why_tests_cant": "The number of message layouts and truncation points is unbounded; MPI messages are concatenations of many objects.", "anchors": ["src/polytope_serialize.hh: serialize, deserialize", "src/DistributedTessellator.cc: computeDistributedTessellation, computeDomainNeighbors", "src/Segment.hh: Serializer<Segment>"]}
{"id": "C03", "title": "Deserializing replaces the destination's contents", "statement": "After deserializing a vector, PLC or ReducedPLC the destination equals the value that was serialized, whatever it held before.", "quantifier": "every prior content of the destination and every serialized value", "why_tests_cant": "Tests only ever deserialize into empty objects, so they cannot see that the code appends to a non-empty destination.", "anchors": ["src/polytope_serialize.hh: Serializer<std::vector<...>>, Serializer<PLC>, Serializer<ReducedPLC>"]}
{"id": "C04", "title": "Deleting cells keeps the mesh topologically consistent", "statement": "If a tessellation is consistent (every index in range, faceCells is exactly the inverse of cells including orientation, one or two cells per face), then after deleteCells with any mask that keeps at least one cell it is consistent again.", "quantifier": "every consistent mesh of any size and dimension and every keep/delete mask", "why_tests_cant": "The space of meshes and masks is exponential; renumbering mistakes appear only for particular patterns.", "anchors": ["src/deleteCells.hh: deleteCells"]}
{"id": "C05", "title": "Deleting cells does not change the surviving cells", "statement": "After deleteCells the surviving cells appear in their original relative order, each with the same number of faces in the same order and orientation, and walking a surviving cell's faces yields exactly the node coordinates it had before.", "quantifier": "every consistent mesh, every mask, every surviving cell, face and node", "why_tests_cant": "Tests compare counts for a few meshes; equality of geometry for all cells under all masks needs a proof.", "anchors": ["src/deleteCells.hh: deleteCells"]}
{"id": "C06", "title": "Deleting cells leaves no orphans and drops nothing in use", "statement": "After deleteCells every remaining face belongs to a remaining cell and every remaining node to a remaining face; and no node or face used by a surviving cell is removed.", "quantifier": "every consistent mesh and mask", "why_tests_cant": "Orphans appear only for particular adjacency patterns.", "anchors": ["src/deleteCells.hh: deleteCells"]}
{"id": "C07", "title": "Deleting cells in two steps equals deleting them in one", "statement": "Deleting one set of cells and then another set (named in the renumbered mesh) gives the same tessellation as deleting the union in one call.", "quantifier": "every consistent mesh and every pair of composable masks", "why_tests_cant": "Order independence over all mask pairs cannot be enumerated.", "anchors": ["src/deleteCells.hh: deleteCells"]}
{"id": "C08", "title": "Deleting cells keeps the communication lists pointing at the same geometry", "statement": "After deleteCells each neighbour domain's shared node and face list contains exactly the previously listed nodes and faces that still exist, in the same order, with their coordinates unchanged, so that two domains whose lists agreed before still agree element by element on the survivors.", "quantifier": "every mesh with communication data, every mask, every neighbour", "why_tests_cant": "Both sides of a communication list must agree for every pair of masks; a test covers a few ranks.", "anchors": ["src/deleteCells.hh: deleteCells", "src/Tessellation.hh: sharedNodes, sharedFaces"]}
{"id": "C09", "title": "Deleting cells keeps the boundary lists valid", "statement": "After deleteCells the boundaryFaces and boundaryNodes of the mesh list exactly the faces with one cell and their nodes, if they did before.", "quantifier": "every consistent mesh and mask", "why_tests_cant": "Existing tests delete cells from meshes without looking at the boundary lists; a stale index is only visible for particular masks.", "anchors": ["src/deleteCells.hh: deleteCells", "src/Tessellation.hh: boundaryNodes, boundaryFaces"]}
{"id": "C10", "title": "MeshEditor::deleteCells removes exactly the requested cells", "statement": "Calling MeshEditor::deleteCells with any list of cell ids removes exactly those cells, keeps the others unchanged, and performs no out-of-bounds access.", "quantifier": "every consistent mesh and every set of cell ids", "why_tests_cant": "The existing test deletes no interior subset that exposes the use of an old index into a shrunken array.", "anchors": ["src/MeshEditor.cc: deleteCells, computeMasks, cleanMesh", "src/MeshEditor.hh"]}
{"id": "C11", "title": "Node-to-cell and cell-to-node queries are exact inverses", "statement": "computeNodeCells reports cell c for node n exactly when some face of c contains n; computeCellToNodes reports n for c exactly in the same cases; so the two queries are converse relations.", "quantifier": "every mesh with in-range indices, every node and cell", "why_tests_cant": "Exactness in both directions for all incidence patterns.", "anchors": ["src/Tessellation.hh: computeNodeCells, computeCellToNodes"]}
{"id": "C12", "title": "Boundary detection is exact", "statement": "findBoundaryElements lists exactly the faces that belong to a single cell, each once in increasing order, and exactly the nodes lying on such a face, each once in increasing order.", "quantifier": "every mesh whose faceCells are filled in", "why_tests_cant": "Exactness over all adjacency patterns.", "anchors": ["src/findBoundaryElements.hh: findBoundaryElements"]}
{"id": "C13", "title": "A cleared tessellation is empty and reusable", "statement": "clear() makes empty() true for every tessellation and leaves it indistinguishable from a newly constructed one; empty() is true only if the tessellation holds no mesh data.", "quantifier": "every tessellation state reachable by any history", "why_tests_cant": "Tests look at one object; a field forgotten in clear or empty only shows up in later parallel use.", "anchors": ["src/Tessellation.hh: clear, empty", "src/PLC.hh: clear, empty"]}
{"id": "C14", "title": "Removing elements by index keeps the rest in order", "statement": "removeElements with a list of positions deletes exactly the elements at those positions and keeps the others in their original order.", "quantifier": "every vector and every strictly increasing list of in-range positions", "why_tests_cant": "All subsets of all vectors.", "anchors": ["src/removeElements.hh: removeElements"]}
{"id": "C15", "title": "Bisection search brackets the value", "statement": "bisectSearch on a sorted non-empty table returns an index i such that the value lies between entries i and i+1 (with -1 and n-1 for values off the ends), reads only inside the table and terminates, for ascending and for descending tables.", "quantifier": "every sorted table (ascending or descending, duplicates allowed) and every value", "why_tests_cant": "Off-by-one errors at ties and ends; descending tables are never tested.", "anchors": ["src/bisectSearch.hh: bisectSearch"]}
{"id": "C16", "title": "Keys are numbered densely and stably", "statement": "Through any sequence of addKeyToMap calls on an initially empty map, equal keys always receive the same id, different keys different ids, and the ids in use are exactly 0..k-1 in order of first appearance.", "quantifier": "every history of insertions", "why_tests_cant": "The claim is about whole histories.", "anchors": ["src/polytope_internal.hh: addKeyToMap, CounterMap"]}
{"id": "C17", "title": "Edge keys identify unordered node pairs", "statement": "hashEdge gives two node pairs the same key exactly when they are the same unordered pair, the key is sorted, and the sign convention id / ~id recovers both the index and the direction.", "quantifier": "every pair of distinct node ids and every non-negative id", "why_tests_cant": "All pairs of integers.", "anchors": ["src/polytope_internal.hh: hashEdge, positiveID"]}
{"id": "C18", "title": "Tolerant point map never merges far points and never loses an exact one", "statement": "Through any history of index queries on a tolerant integer point map: querying a point already stored returns its id; a returned id always belongs to a stored point within the tolerance in every coordinate; new ids are dense; and have() is true exactly when index() would not create a new id.", "quantifier": "every history of queries in 2D and 3D, every tolerance", "why_tests_cant": "Histories are unbounded, and the 3D have() intersects candidate sets incorrectly in a way small tests do not show.", "anchors": ["src/IntPointMap.hh: IntPointMap::index, IntPointMap::have"]}
{"id": "C19", "title": "Morton keys identify quantized positions", "statement": "The Morton key computed for a quantized position interleaves its coordinate bits, so different positions get different keys; mortonOrderIndices returns one key per point, in the order of the points. The computation has defined behaviour.", "quantifier": "every list of points and every coordinate within the advertised bit width", "why_tests_cant": "2^64 positions; collisions depend on overlapping shifts.", "anchors": ["src/mortonOrderIndices.hh: mortonOrderIndices"]}
{"id": "C20", "title": "Edge sorting around a face yields a closed oriented loop", "statement": "Given the edges of a single closed polygon, or of one with a single gap, in any order and orientation, computeSortedFaceEdges returns each edge exactly once, oriented so that consecutive edges share a node head-to-tail and the last connects to the first (adding one closing edge when there is a gap, and reporting it).", "quantifier": "every polygon or open chain with at least two edges, every ordering of its edges", "why_tests_cant": "n! orderings for each n; the orientation of the first edge is wrong only for particular orderings.", "anchors": ["src/polytope_internal.hh: computeSortedFaceEdges", "src/TriangleTessellator.cc: computeSortedFaceNodes"]}
{"id": "C21", "title": "Degenerate generators map to one cell per distinct position", "statement": "uniquePoints (used by tessellateDegenerate) returns distinct representative positions, maps every input point to the representative it coincides with after quantization, numbers representatives in first-appearance order, and moves nothing when the inputs are already distinct.", "quantifier": "every list of generators and every tolerance", "why_tests_cant": "All duplicate patterns.", "anchors": ["src/polytope_geometric_utilities.hh: uniquePoints", "src/TessellatorInline.hh: tessellateDegenerate"]}
{"id": "C22", "title": "A reduced PLC describes the same geometry as the PLC it came from", "statement": "Constructing a ReducedPLC from a PLC and its points keeps every facet and every hole facet with the same vertex coordinates in the same order, and stores no unused point.", "quantifier": "every PLC with in-range vertex ids and every point list", "why_tests_cant": "Tests use PLCs without holes.", "anchors": ["src/ReducedPLC.hh: ReducedPLC(plc, points)"]}
{"id": "C23", "title": "Generated boxes are valid closed outward-oriented boundaries", "statement": "The box PLCs built by the library are valid, their facets form a closed surface (each directed edge is matched by its reverse), and their enclosed signed area/volume is the positive product of the side lengths.", "quantifier": "every low/high corner pair with low < high in 2D and 3D", "why_tests_cant": "Orientation and enclosed measure for all boxes.", "anchors": ["src/polytope_plc_canned_geometries.hh: plc_box", "src/makeBoxPLC.hh: makeBoxPLC"]}
{"id": "C24", "title": "Generated circle boundaries are closed loops", "statement": "plc_circle with any number of segments greater than two is a valid PLC whose facets form a single closed loop visiting every point exactly once, all points at exactly the requested radius from the centre.", "quantifier": "every centre, radius and segment count", "why_tests_cant": "All segment counts; wrap-around index at the end.", "anchors": ["src/polytope_plc_canned_geometries.hh: plc_circle", "src/PLC.hh: valid"]}
{"id": "C25", "title": "Extracting one cell as a PLC keeps its geometry", "statement": "cellToReducedPLC of a cell of a consistent mesh gives a PLC whose facets are the cell's faces, oriented outward as the cell uses them, with the same coordinates: in 3D in the order of the cell, in 2D (where the cell must be listed as a closed loop of at least three edges) in cyclic order starting from the second face.", "quantifier": "every consistent mesh and cell index (2D: cells that are closed loops)", "why_tests_cant": "All cells and orientations.", "anchors": ["src/polytope_geometric_utilities.hh: cellToReducedPLC"]}
{"id": "C26", "title": "Circumcentres are equidistant", "statement": "The circumcentre returned for three non-collinear points in the plane, four non-coplanar points in space, or a non-degenerate triangle in space is equidistant from all of them (and lies in the plane of the triangle).", "quantifier": "all non-degenerate point tuples (exact arithmetic)", "why_tests_cant": "Continuous domain.", "anchors": ["src/polytope_geometric_utilities.hh: computeCircumcenter, computeCircumcenter2d, computeCircumcenter3d, computeTriangleCircumcenter3d"]}
{"id": "C27", "title": "Cell areas add up to the area of the boundary", "statement": "For every consistent 2D mesh the sum of the signed areas computed for all cells equals the signed area enclosed by its boundary faces: interior faces cancel exactly.", "quantifier": "every consistent 2D mesh and every placement of its nodes (exact arithmetic)", "why_tests_cant": "Tests check a unit square; cancellation must hold for every topology and geometry.", "anchors": ["src/polytope_geometric_utilities.hh: computeCellCentroidAndSignedArea", "src/Tessellation.hh: faceCells"]}
{"id": "C28", "title": "Area and centroid do not depend on where the cell is", "statement": "Translating a cell leaves its signed area (volume) unchanged and moves its centroid by the same vector, and listing its boundary from a different starting face changes neither.", "quantifier": "every closed polygonal cell and translation (exact arithmetic)", "why_tests_cant": "Continuous domain and all polygons.", "anchors": ["src/polytope_geometric_utilities.hh: computeCellCentroidAndSignedArea, computeCellCentroidAndSignedVolume"]}
{"id": "C29", "title": "Closest-point queries are optimal", "statement": "The point returned by closestPointOnSegment2D lies on the segment and is at least as close to the query as every other point of the segment; nearestPoint returns a point on the boundary of the PLC that is at least as close as every other boundary point and reports that distance.", "quantifier": "every segment, boundary and query point (exact arithmetic)", "why_tests_cant": "Continuous domain; optimality over all competitors.", "anchors": ["src/polytope_geometric_utilities.hh: closestPointOnSegment2D", "src/nearestPoint.hh: nearestPoint"]}
{"id": "C30", "title": "Segment intersection is sound and complete", "statement": "segmentIntersection2D reports an intersection only if the reported point lies on both segments, and reports one for every pair of non-parallel segments that meet.", "quantifier": "every pair of segments (exact arithmetic)", "why_tests_cant": "Continuous domain; missed tangencies at end points.", "anchors": ["src/polytope_geometric_utilities.hh: segmentIntersection2D", "src/intersect.hh: intersect"]}
{"id": "C31", "title": "Point-in-polygon answers do not depend on how the polygon is listed", "statement": "pointInPolygon gives the same answer if the polygon's vertices are listed from a different start, in the opposite direction, or translated together with the query, and agrees with the exact answer for axis-aligned boxes and triangles away from the boundary.", "quantifier": "every polygon, query, rotation of the list, reversal and translation (exact arithmetic)", "why_tests_cant": "All polygons; symmetric behaviour at half-open edges.", "anchors": ["src/polytope_geometric_utilities.hh: pointInPolygon, pointOnPolygon"]}
{"id": "C32", "title": "Convex containment and overlap tests of polygons are right", "statement": "For convex polygons a and b given as counter-clockwise facets: convexWithin(a, b) is true exactly when all of a, boundary included, lies inside b, and convexIntersect(a, b) is false exactly when a and b have no point in common.", "quantifier": "every pair of convex polygons, with facets and points in any order and numbering (exact arithmetic)", "why_tests_cant": "Continuous domain; a missed overlap silently drops a neighbour domain.", "anchors": ["src/convexWithin.hh: convexWithin", "src/convexIntersect.hh: convexIntersect"]}
{"id": "C33", "title": "The 2D convex hull contains every input and is convex", "statement": "convexHull_2d returns facets whose vertices are input points, which turn strictly counter-clockwise, and every input point is on or to the left of every hull edge.", "quantifier": "every list of at least three points that are not all collinear (exact integer arithmetic after quantization)", "why_tests_cant": "All point sets; collinear runs and duplicates are the failing cases.", "anchors": ["src/convexHull_2d.hh: convexHull_2d"]}
{"id": "C34", "title": "Ray casting returns points on the surface and on the ray", "statement": "When ray/circle, ray/sphere, ray/box and ray/plane intersection report success the returned point lies on the surface and on the ray in its forward direction; failure is reported only if the ray misses the surface.", "quantifier": "every ray and surface (exact arithmetic)", "why_tests_cant": "Continuous domain; the parallel test for planes uses the wrong vector.", "anchors": ["src/polytope_geometric_utilities.hh: rayPlaneIntersection, rayCircleIntersection, raySphereIntersection, rayBoxIntersection"]}
{"id": "C35", "title": "Bounding boxes are tight", "statement": "computeBoundingBox contains every point and touches the data on every side; expanding by more points never shrinks it, and the distributed reduction gives every process the bounding box of all processes' points.", "quantifier": "every point list and every distribution over processes", "why_tests_cant": "All data and all splits.", "anchors": ["src/polytope_geometric_utilities.hh: computeBoundingBox, expandBoundingBox", "src/DistributedTessellator.cc: computeBoundingBox"]}
{"id": "C36", "title": "Quantization error is bounded and in range", "statement": "Every coordinate inside the declared bounds is quantized without overflow, dequantizing differs from the original by less than one quantum, quantization is monotone, and re-quantizing a dequantized coordinate is stable.", "quantifier": "every bounds box and every coordinate inside it (exact arithmetic, 32-bit integer range)", "why_tests_cant": "2^31 cells times continuous inputs.", "anchors": ["src/QuantizedTessellation2d.cc: quantize, dequantize", "src/QuantizedTessellation2d.hh", "src/Point.hh: Point2(xi,yi,xlow,ylow,dx)", "src/QuantizedTessellation3d.cc"]}
{"id": "C37", "title": "Position hashes identify positions", "statement": "Hasher assigns different hashes to positions in different quantization cells, and unhashing returns a position within one cell of the original.", "quantifier": "every position inside the bounds, 2D and 3D", "why_tests_cant": "The hash packs several fields into one integer; collisions depend on field widths.", "anchors": ["src/polytope_geometric_utilities.hh: Hasher<2>, Hasher<3>"]}
{"id": "C38", "title": "Cells read out of a Voronoi diagram are closed edge loops on shared edges", "statement": "Given each cell's ordered ring of vertices, the tessellators' node/edge numbering produces: distinct node positions, each undirected edge once, and for each cell a signed edge list that traverses exactly the cell's ring (with repeated vertices removed) head to tail and closes on itself.", "quantifier": "every collection of vertex rings", "why_tests_cant": "All diagrams, including degenerate rings with coincident vertices.", "anchors": ["src/BoostTessellator.cc: tessellateQuantized", "src/clipQuantizedTessellation2d.cc: clipQuantizedTessellation"]}
{"id": "C39", "title": "Filling the output mesh gives consistent face/cell adjacency", "statement": "fillTessellation of any quantized tessellation into an empty mesh makes faceCells exactly the signed inverse of cells, faces exactly the edges and cells exactly the cell edge lists, so that when each edge is used at most once in each direction every face has one or two cells of opposite sign.", "quantifier": "every quantized tessellation", "why_tests_cant": "All topologies.", "anchors": ["src/QuantizedTessellation2d.cc: fillTessellation"]}
{"id": "C40", "title": "Compaction after clipping preserves the cells", "statement": "Removing unused edges and nodes and renumbering after clipping leaves every cell traversing the same node positions in the same directions, and leaves no unused edge or node.", "quantifier": "every node/edge/cell numbering with in-range ids", "why_tests_cant": "All usage patterns of edges and nodes.", "anchors": ["src/clipQuantizedTessellation2d.cc: clipQuantizedTessellation (compaction)", "src/removeElements.hh"]}
{"id": "C41", "title": "Snapping to the boundary moves only boundary nodes and only slightly", "statement": "snapToBoundary changes only node coordinates, only of nodes listed as boundary nodes, moves each of them by less than its tolerance onto the PLC, and after it every PLC vertex that has an unclaimed boundary node within tolerance coincides exactly with a mesh node.", "quantifier": "every mesh, PLC and tolerance (exact arithmetic)", "why_tests_cant": "All boundary configurations and processing orders.", "anchors": ["src/snapToBoundary.cc: snapToBoundary"]}
{"id": "C42", "title": "Splitting by a line or plane loses and reverses nothing", "statement": "When a segment (2D) or polygon (3D) is split by a line/plane the front piece lies in front, the back piece behind, and the two pieces make up the original with its orientation.", "quantifier": "every segment/polygon and line/plane (exact arithmetic)", "why_tests_cant": "Continuous domain; orientation of the pieces matters only in later operations.", "anchors": ["src/PLC_CSG_2d.hh: splitSegment", "src/PLC_CSG_3d.hh: splitPolygon"]}
{"id": "C43", "title": "Inverting a solid twice is the identity", "statement": "Inverting a BSP solid twice gives back the same tree, the same boundary elements with the same orientation; inversion exchanges inside and outside of every point not on a partition line.", "quantifier": "every BSP tree in 2D and 3D", "why_tests_cant": "All trees.", "anchors": ["src/PLC_CSG_2d.hh: Node::invert", "src/PLC_CSG_3d.hh: Node::invert"]}
{"id": "C44", "title": "Clipping keeps exactly what is outside the solid", "statement": "clipSegments/clipPolygons keep a boundary element that lies strictly outside a solid, drop one that lies strictly inside, and never invent geometry.", "quantifier": "every BSP tree and list of elements (exact arithmetic)", "why_tests_cant": "All trees and elements.", "anchors": ["src/PLC_CSG_2d.hh: Node::clipSegments, clipTo", "src/PLC_CSG_3d.hh: Node::clipPolygons, clipTo"]}
{"id": "C45", "title": "Building a BSP terminates and keeps all the geometry", "statement": "Building a BSP tree from any list of elements terminates, and the elements in the tree are exactly the inputs or their split pieces.", "quantifier": "every list of elements", "why_tests_cant": "Termination for all inputs cannot be tested.", "anchors": ["src/PLC_CSG_2d.hh: Node::build, allSegments", "src/PLC_CSG_3d.hh: Node::build, allPolygons"]}
{"id": "C46", "title": "Every cell is owned by exactly one process", "statement": "With generators distributed over any number of processes (some possibly empty), the owner computed for each cell is the process that supplied its generator, so the processes' meshes partition the serial tessellation.", "quantifier": "every number of processes and every distribution of generators", "why_tests_cant": "All distributions, including empty processes.", "anchors": ["src/SerialDistributedTessellator.cc: ownerRank, computeDistributedTessellation"]}
{"id": "C47", "title": "Two processes agree on what they share", "statement": "For every pair of processes, each lists the other as neighbour or neither does, and their shared node lists (and shared face lists) have the same length and name the same physical nodes (faces) in the same order.", "quantifier": "every serial mesh, every distribution over any number of processes, every pair", "why_tests_cant": "All pairs in all distributions; a mismatch deadlocks or corrupts the exchange.", "anchors": ["src/SerialDistributedTessellator.cc: computeDistributedTessellation", "src/deleteCells.hh: deleteCells"]}
{"id": "C48", "title": "After the ownership exchange all sharers hold identical coordinates", "statement": "When the shared-node lists are mutually consistent, every message of the ownership exchange has the length its receiver expects, and afterwards all processes sharing a node hold bit-identical coordinates, namely those of the lowest-ranked sharer, whatever order messages are delivered in.", "quantifier": "every number of processes, every consistent sharing pattern, every delivery order", "why_tests_cant": "Schedules and sharing patterns are unbounded.", "anchors": ["src/DistributedTessellator.cc: computeDistributedTessellation (node ownership exchange)"]}
{"id": "C49", "title": "Distributed tessellation without communication info is memory safe", "statement": "DistributedTessellator with its default arguments accesses only existing entries of the shared-node tables on any number of processes.", "quantifier": "every number of processes and neighbour pattern, both values of buildCommunicationInfo", "why_tests_cant": "Depends on process count and configuration flags that tests do not combine.", "anchors": ["src/DistributedTessellator.cc: computeDistributedTessellation", "src/DistributedTessellator.hh"]}
{"id": "C50", "title": "All processes reach the same, correct verdict on a distributed mesh", "statement": "checkDistributedTessellation returns the same string on every process, and it returns ok exactly if the communication lists of the processes fit together: neighbour relations are symmetric, two neighbours list the same physical nodes for each other in the same order, something is shared with each neighbour, and every node present on two processes is listed.", "quantifier": "every number of processes, all meshes and communication lists whose entries are in range, every sorting algorithm", "why_tests_cant": "All combinations of local data on all processes; mismatched collective operations hang only for particular data.", "anchors": ["src/checkDistributedTessellation.hh: reduceToMaxString, checkConsistentCommInfo, checkAllSharedElementsFound, checkDistributedTessellation"]}
{"id": "C51", "title": "Edge cleaning collapses each node at most once", "statement": "flagging short edges for removal never selects two edges with a common node, never selects an edge longer than the tolerance allows, and never marks a node both kept and deleted. A node of the boundary is never replaced by one of the interior; otherwise the node of smaller number stays.", "quantifier": "every 2D mesh, tolerance and corner set", "why_tests_cant": "All edge-length patterns; conflicts arise only when short edges are adjacent.", "anchors": ["src/MeshEditor.cc: flagEdgesForCleaning, cleanEdges"]}
{"id": "C52", "title": "Points are totally ordered and equality agrees with the order", "statement": "Point2/Point3 comparison is a strict total order on positions compatible with ==; the fuzzy PointComparator used as a map key order is a strict weak order.", "quantifier": "all points and all fuzz values", "why_tests_cant": "Ordered containers are silently corrupted if the comparator is not a strict weak order; tests cannot enumerate triples.", "anchors": ["src/Point.hh: Point2, Point3, PointComparator"]}
{"id": "C53", "title": "Edge cleaning leaves a valid mesh", "statement": "MeshEditor::cleanEdges on a valid 2D mesh leaves a consistent mesh with the same number of cells, every cell still a closed polygon with at least three sides, no face with equal ends, and a boundary that the editor accepts again.", "quantifier": "every valid 2D mesh, tolerance, distance and collinearity test", "why_tests_cant": "Depends on which edges are short and on how they touch each other and the boundary.", "anchors": ["src/MeshEditor.cc: cleanEdges, flagEdgesForCleaning, cleanMesh"]}
{"id": "C54", "title": "Cell volumes add up to the volume of the boundary", "statement": "For every consistent 3D mesh of closed cells the signed volumes computed for all cells are defined and add up to the signed volume enclosed by its boundary faces.", "quantifier": "every consistent 3D mesh with closed cells and every placement of its nodes (exact arithmetic)", "why_tests_cant": "Tests check a cube; cancellation over interior faces must hold for every topology and geometry, planar faces or not.", "anchors": ["src/polytope_geometric_utilities.hh: computeCellCentroidAndSignedVolume, computeFaceCentroidAndNormal"]}
{"id": "C55", "title": "Crossings of a segment with a PLC boundary are counted", "statement": "intersect() returns the number of points in which a segment crosses the facets of a PLC and its holes, and appends exactly those points to its result.", "quantifier": "all PLCs with holes, vertex arrays and segments", "why_tests_cant": "depends on the direction of the segment and the order of the facets; tests use one box and one slanted segment", "anchors": ["src/intersect.hh: intersect", "src/intersect.hh: IntersectFacetsFunctor<2>::impl"]}
{"id": "C56", "title": "The collinearity test of a point cloud looks at every point", "statement": "collinear() of an array of points returns true exactly when every point is collinear, up to tolerance, with the first two.", "quantifier": "all point arrays of either dimension and every tolerance", "why_tests_cant": "the skipped index matters only for particular counts and dimensions", "anchors": ["src/polytope_geometric_utilities.hh: collinear(points, tol)"]}
{"id": "C57", "title": "between() recognises the points of a segment", "statement": "between(a, b, c, tol) is true for every point c of the segment ab and only for points within tolerance of it.", "quantifier": "all segments and points over any ordered field, all positive tolerances", "why_tests_cant": "holds or fails depending on the ratio of segment length to an absolute tolerance", "anchors": ["src/polytope_geometric_utilities.hh: between"]}
{"id": "C58", "title": "The boundary test of a polygon finds exactly its sides", "statement": "pointOnPolygon is true exactly for the points of the sides of the polygon.", "quantifier": "all polygons of any number of vertices and all query points", "why_tests_cant": "depends on angles and lengths relative to an absolute tolerance, over a continuum of points", "anchors": ["src/polytope_geometric_utilities.hh: pointOnPolygon"]}
{"id": "C59", "title": "within() decides membership in a boundary with holes", "statement": "within(point, plc) is true exactly for the points inside or on the outer boundary that are not strictly inside a hole, whatever the numbering of the vertices and the order of the facets.", "quantifier": "all convex boundaries with any number of convex holes, all points, all numberings", "why_tests_cant": "tests use boxes numbered in order; the vertex numbering matters", "anchors": ["src/within.hh: within", "src/within.hh: WithinBoundaryFunctor<2>::impl"]}
{"id": "C60", "title": "Convex containment and overlap tests of solids are right", "statement": "For convex polyhedra given as facets listed counter-clockwise seen from outside: convexWithin(a, b) is true exactly when all of a lies inside b, and convexIntersect(a, b) is false exactly when a and b have no point in common.", "quantifier": "every pair of convex polyhedra (exact arithmetic)", "why_tests_cant": "Continuous domain; the existing tests use a few boxes whose faces happen to hide the wrong normal.", "anchors": ["src/convexWithin.hh: convexWithin", "src/convexIntersect.hh: convexIntersect", "src/polytope_geometric_utilities.hh: computeNormal"]}
{"id": "C61", "title": "The validity check of a PLC is exact", "statement": "PLC::valid returns true exactly if every facet of the boundary and of every hole has two vertices (2D) or at least three (3D), and PLC::empty exactly if there is no facet and no hole.", "quantifier": "every PLC, 2D and 3D", "why_tests_cant": "All facet and hole lists.", "anchors": ["src/PLC.hh: valid, empty"]}
{"id": "C62", "title": "Centroids of triangles and tetrahedra divide them evenly", "statement": "The centroid returned for a triangle or tetrahedron is on every median at the right ratio, and cuts the triangle or tetrahedron into parts of equal signed area or volume.", "quantifier": "all triangles and tetrahedra, degenerate ones included (exact arithmetic)", "why_tests_cant": "Continuous domain.", "anchors": ["src/polytope_geometric_utilities.hh: computeTriangleCentroid2d, computeTetCentroid"]}
{"id": "C63", "title": "Boolean operations return the right boundary", "statement": "csg_union, csg_subtract and csg_intersect of two polygons return facets that are exactly the parts of the facets of each polygon that are outside (union), outside/inside (difference) or inside (intersection) the other, up to points within the tolerance of the other polygon's boundary lines.", "quantifier": "every pair of polygons, with or without holes, every order of facets (exact arithmetic)", "why_tests_cant": "Continuous domain, all polygons and all partition orders.", "anchors": ["src/PLC_CSG_2d.hh: csg_union, csg_subtract, csg_intersect, ReducedPLCtoSegments, ReducedPLCfromSegments"]}
{"id": "C64", "title": "The result of a boolean operation is again a polygon", "statement": "For polygons whose facets go around them in one direction, the result of a boolean operation is a closed, consistently oriented (possibly empty) boundary that can be an operand of the next operation.", "quantifier": "every pair of polygons and every sequence of operations", "why_tests_cant": "All chains of operations; orientation errors show only in later operations.", "anchors": ["src/PLC_CSG_2d.hh: Line::splitSegment, ReducedPLCfromSegments, csg_union, csg_intersect"]}
{"id": "C65", "title": "Every process receives the generators of all its neighbours", "statement": "If the neighbour lists are symmetric, then for every order in which messages are delivered the exchange of generators ends without error or deadlock, and every process holds its own generators followed by those of its neighbours in the order of its neighbour list, each labelled with the process it came from.", "quantifier": "every number of processes, symmetric neighbour relation, generator lists and delivery order", "why_tests_cant": "Schedules and neighbour patterns are unbounded.", "anchors": ["src/DistributedTessellator.cc: computeDistributedTessellation (exchange of generators)"]}
{"id": "C66", "title": "Processes derive matching lists of shared nodes and faces", "statement": "Each process tessellates its own generators together with those of its neighbours and keeps its own cells. If these halo meshes agree about which nodes and faces lie between the cells of two processes, then the meshes returned have symmetric neighbour lists, two neighbours list the same physical nodes and faces for each other in the same order, and every node on both processes is listed.", "quantifier": "every number of processes, halo meshes that agree, numbering of nodes and faces on each process, and sorting algorithm", "why_tests_cant": "The lists are built separately on each process; agreement must hold for all numberings and all process counts.", "anchors": ["src/DistributedTessellator.cc: computeDistributedTessellation (communication info)", "src/DimensionTraits.hh: faceCentroid, constructPoint"]}
{"id": "C67", "title": "Boolean operations on solids return the right boundary", "statement": "The union, difference and intersection of two valid three-dimensional PLCs return a PLC whose facets are exactly the parts of the facets of the operands that bound the union, difference or intersection of the two solids (within the tolerance of the planes); the operations come to an end.", "quantifier": "every pair of PLCs bounding solids, every tolerance", "why_tests_cant": "Tests compare the volumes of two boxes; the claim is about every point of the facets of every pair of solids.", "anchors": ["src/PLC_CSG_3d.hh: csg_union, csg_intersect, csg_subtract, ReducedPLCtoPolygons, ReducedPLCfromPolygons"]}
{"id": "C68", "title": "The cells of the triangle tessellator are dual to the triangulation", "statement": "From a triangulation in which every generator is surrounded by triangles, tessellate with the triangle tessellator makes one cell per generator and one node per triangle that has a generator as a corner. The node is less than one grid spacing, in each coordinate, from the point that has the same distance from the three corners. The cell of a generator leads once around the triangles at that generator; each of its sides joins the nodes of two triangles with an edge at the generator in common. Every face is listed once, joins two different nodes and belongs to one cell or two. The mesh that is filled in is consistent.", "quantifier": "every number of generators and guard points, every list of triangles around them in every order, every grid size and position, builds with and without assertions", "why_tests_cant": "Tests run lattices and random points through the library Triangle and look at cell counts and areas; the claim is about every triangulation, every order of the triangles and every node.", "anchors": ["src/TriangleTessellator.cc: tessellateQuantized, findOtherTriIndices, computeSortedFaceNodes", "src/QuantizedTessellation2d.cc: quantize, dequantize, fillTessellation"]}
{"id": "C69", "title": "Sides of the cells of the triangle tessellator: direction and length", "statement": "The signed faces of a cell, in the order in which they are listed, lead around the cell so that each one starts where the one before it ends. The two cells of an interior face have it with opposite signs. The two nodes of a face are at different places.", "quantifier": "every triangulation, every order of its triangles, builds with and without assertions", "why_tests_cant": "The signs depend on the numbering of the triangles and the lengths on coincidences between circumcentres; tests compare neither.", "anchors": ["src/TriangleTessellator.cc: tessellateQuantized, computeSortedFaceNodes", "src/Tessellation.hh: cells, faceCells"]}
{"id": "C70", "title": "tessellate without boundary returns the Voronoi mesh", "statement": "tessellate(points, mesh) of the triangle tessellator returns, on every process, a mesh with one cell per point. The mesh is consistent and lists its boundary faces and nodes exactly. Each cell is the set of the places nearer to its generator than to any other generator or frame point: the generators are rounded down to a grid, and the frame lies on a square five times as large as the bounding box of all points. Nodes are less than a grid spacing from the exact corners.", "quantifier": "every non-empty list of points, on every number of processes, every triangulation of the rounded points that has the Delaunay property, builds with and without assertions", "why_tests_cant": "A test compares cell counts and total areas for a few hundred random points. The claim is about every place of the plane and every set of generators.", "anchors": ["src/TessellatorInline.hh: tessellate", "src/QuantizedTessellation2d.cc: QuantizedTessellation2d, fillTessellation", "src/TriangleTessellator.cc: tessellateQuantized", "src/findBoundaryElements.cc: findBoundaryElements"]}
{"id": "C71", "title": "Inside the bounding box the cells are those of the generators alone", "statement": "In the mesh that tessellate(points, mesh) returns, the cells cover the bounding box of the generators, and inside it a place belongs to the cell of a generator if and only if no other generator is nearer (generators and corners rounded as in C70). The frame points have no influence there.", "quantifier": "every list of points, no two of them at the same grid point and not all at one place, every place in the bounding box, builds with and without assertions", "why_tests_cant": "It is a statement about every place in the box.", "anchors": ["src/TessellatorInline.hh: tessellate", "src/QuantizedTessellation2d.cc: constructBounds"]}
{"id": "C72", "title": "tessellateDegenerate tessellates the distinct generators and maps every generator to its cell", "statement": "After tessellateDegenerate without boundary, the mesh is the Voronoi mesh of the distinct generators, one cell each in order of first appearance, and entry i of the returned map is the number of the cell of generator i. Generators share a cell only if they are closer together than the tolerance.", "quantifier": "all generator lists, numbers of processes, tolerances and triangulations", "why_tests_cant": "Which generators are merged depends on their positions relative to the bounding box of all processes; tests use a few lattices.", "anchors": ["src/TessellatorInline.hh:tessellateDegenerate", "src/Tessellator.hh:tessellateDegenerate", "src/polytope_geometric_utilities.hh: uniquePoints"]}
{"id": "C73", "title": "Tessellating inside a boundary gives one cell per generator and puts the boundary nodes on the boundary", "statement": "tessellate(points, PLCpoints, geometry, mesh) and tessellate(points, low, high, mesh) return a consistent mesh with one cell per generator; cell i is the unbounded cell of generator i cut with the boundary, the boundary lists are exact, every PLC point is a node and every boundary node lies on the PLC.", "quantifier": "all tessellators, generators inside the boundary, PLCs with holes, tolerances, builds with and without assertions", "why_tests_cant": "Tests compare cell counts and areas for a few boundaries; that vertices which are merged or snapped never break the topology, and that nothing but boundary nodes moves, concerns every arrangement.", "anchors": ["src/TessellatorInline.hh: tessellate (box), tessellate (PLC)", "src/clipQuantizedTessellation2d.cc: clipQuantizedTessellation", "src/snapToBoundary.cc: snapToBoundary"]}
{"id": "C74", "title": "Meshes through the C interface", "statement": "The arrays of a C mesh object describe exactly the mesh that the C++ tessellator returned, and a mesh read back from them is that mesh.", "quantifier": "all meshes whose lists have the right lengths, all previous contents of the C object", "why_tests_cant": "the offsets depend on all rows before them, and the encoding of the second cell of a face clashes with one cell number", "anchors": ["polytope_c/polytope_tessellator.cc fill_tessellation", "polytope_c/polytope_tessellation.h"]}
{"id": "C75", "title": "Memory of a C mesh object", "statement": "Between polytope_tessellation_new and polytope_tessellation_free, any sequence of tessellate and clear calls touches no freed or unset memory and leaks nothing.", "quantifier": "all sequences of calls, all shapes of meshes", "why_tests_cant": "there are infinitely many call sequences; freeing an unset or dangling pointer often goes unnoticed in a test run", "anchors": ["polytope_c/polytope_tessellation.cc polytope_tessellation_new, polytope_tessellation_clear, polytope_tessellation_free", "polytope_c/polytope_tessellator.cc fill_tessellation"]}
{"id": "C76", "title": "Building a PLC by C calls", "statement": "After any sequence of calls the PLC has the facets and holes that were added since it was cleared last, each with the nodes added to it in order, every call returned the number of what it added, and the queries return this.", "quantifier": "all sequences of calls, with valid and invalid numbers", "why_tests_cant": "histories are unbounded, and calls on different facets and holes interleave", "anchors": ["polytope_c/polytope_plc.cc"]}
{"id": "C77", "title": "Neighbouring processes are chosen symmetrically and completely", "statement": "In a distributed tessellation every process computes the list of processes it exchanges generators with. The lists are increasing, without repetition and without the process itself; they are symmetric; they contain every process whose hull of generators overlaps with its own and every process that owns a Voronoi cell touching one of its own; with more than one process none is empty. The exchange of generators then ends on every schedule with the right generators.", "quantifier": "all numbers of processes, all distributions of distinct generators in the plane, all hull and tessellation routines that return right results", "why_tests_cant": "The failing configurations depend on how generators are spread over processes; a test suite runs a handful of distributions on a few processes.", "anchors": ["src/DistributedTessellator.cc computeDomainNeighbors", "src/DimensionTraits.hh hullDimension", "src/convexIntersect.hh convexIntersect"]}
{"id": "C78", "title": "A distributed tessellation is the serial one cut into pieces", "statement": "For any number of processes with any distinct points in a convex domain, DistributedTessellator gives every process a mesh with one cell per own point, in their order, equal to the cell a serial tessellation of all the points has there; together the cells fill the domain and do not overlap, processes list the same shared nodes and faces for each other in the same order, and the final exchange of node coordinates ends and changes nothing that was right.", "quantifier": "all numbers of processes, all distributions of distinct points over them, all convex domains, all correct serial tessellators and convex hull algorithms, all sort algorithms, all interleavings of the processes", "why_tests_cant": "whether the generators that a process does not receive can matter depends on the positions of all the points of all the processes; tests use a few regular distributions and compare counts", "anchors": ["src/DistributedTessellator.cc:computeDistributedTessellation", "src/DistributedTessellator.cc:computeDomainNeighbors", "src/DistributedTessellator.cc:tessellationWrapper", "src/DistributedTessellator.hh:DistributedTessellator"]}
{"id": "C79", "title": "The convex hull of points of space", "statement": "convexHull in 3D returns, for any points that are not in one plane, the boundary of their convex hull: triangles of given points, seen counter-clockwise from outside, that form a closed surface whose inside is exactly the convex hull of the points. The call ends for all points, and the numbers in the facets are numbers of given points.", "quantifier": "all lists of points, all distributions over processes that share the bounding box, all platforms, debug and release", "why_tests_cant": "the horizon of each new point depends on all the facets so far; tests use a few shapes", "anchors": ["src/convexHull_3d.hh:convexHull_3d", "src/convexHull_3d.hh:cullVisibleFacets", "src/convexHull_3d.hh:highestPoint", "src/convexHull_3d.hh:exteriorPoints", "src/DimensionTraits.hh:convexHull"]}
{"id": "C80", "title": "A Silo file holds the mesh, its fields and its tags", "statement": "The file that SiloWriter writes for the mesh of one process holds the node coordinates, the nodes of every face and cell, the faces and cells on each side of each other, the boundary faces, the convex hull, every field under its name with one value per node, face, edge or cell, and every tag under its name: two different meshes never give the same file.", "quantifier": "all meshes of polygons or polyhedra, all fields and tags, debug and release", "why_tests_cant": "a lost or shifted entry shows only for the mesh in which it matters; the tests write files and look at them by eye", "anchors": ["src/SiloWriter_2d.cc:write", "src/SiloWriter_3d.cc:write", "src/SiloUtils.cc:writeTagsToFile", "src/SiloUtils.hh:writeFieldsToFile"]}
{"id": "C81", "title": "A parallel dump can be read from its master file", "statement": "When SiloWriter writes the meshes of many processes into any number of files, the master file has one name per process and following these names reaches the mesh of every process.", "quantifier": "all numbers of processes and files, all directories, both dimensions, all ways in which the library groups processes", "why_tests_cant": "the grouping depends on the numbers of processes and files; tests use one file per process", "anchors": ["src/SiloWriter_2d.cc:write", "src/SiloWriter_3d.cc:write", "src/SiloUtils.cc:PMPIO_createFile", "src/SiloUtils.cc:PMPIO_openFile"]}
{"id": "C82", "title": "An OFF file is valid and holds the whole PLC", "statement": "writePLCtoOFF writes a file in the OFF format of Geomview from which any reader of that format gets back the points and all the facets, those of the holes too.", "quantifier": "all PLCs and all lists of points, in 2D and 3D", "why_tests_cant": "no test reads the files back", "anchors": ["src/polytope_write_OOGL.hh:writePLCtoOFF"]}
{"id": "C83", "title": "Writing a Silo file from C", "statement": "polytope_write_silo and polytope_write_silo_with_tags write, for every mesh held by a C object, the same file as the C++ writer for that mesh, with every field and tag under its name; of several with one name the last counts; all memory used by the call is freed.", "quantifier": "all meshes, all arrays of names, fields and tags, in 2D and 3D, debug and release", "why_tests_cant": "depends on all the arrays of the C object and on which names are equal; no test calls these functions with tags", "anchors": ["polytope_c/polytope_write_silo.cc:polytope_write_silo_with_tags", "polytope_c/polytope_write_silo.cc:polytope_write_silo", "polytope_c/polytope_tessellator.cc:fill_tessellation"]}
{"id": "C84", "title": "Cleaning short edges on several processes", "statement": "MeshEditor::cleanEdges, called by all processes of a distributed 2D mesh, ends on all of them without a failure whatever the order in which messages arrive. The result does not depend on that order. Two processes merge the nodes they share in the same way, so that what they share still fits together. A process merges only edges that cleaning its mesh by itself would merge, an edge it shares only if the neighbour would merge it too, and a node of the boundary never moves into the interior.", "quantifier": "every number of processes, every distributed mesh and tolerance, every order in which processes run and messages arrive", "why_tests_cant": "The outcome depends on the schedule of messages and on the pattern of short edges on both sides of every border; the faults are in the lifetime of buffers and depend on the MPI library.", "anchors": ["src/MeshEditor.cc: cleanEdges, flagEdgesForCleaning"]}
{"id": "C85", "title": "Simplifying the facets of a 2D PLC", "statement": "simplifyPLCfacets on a PLC that is a closed polygon in 2D returns the same polygon with the points taken out at which it does not turn: every point at which it turns stays, in the old order and once, every other one goes, the facets run around the polygon one after the other, the set of points on the facets stays as it is, and so do the area enclosed and its sign, and the holes. It always returns.", "quantifier": "every closed polygon with any number of facets, listed in any order and directed in any way, every list of points with points listed several times or not used, every tolerance above zero", "why_tests_cant": "The result depends on where on the polygon the walk starts, on runs of points on one line of any length, some across the start, and on the order in which the points are listed.", "anchors": ["src/simplifyPLCfacets.hh: simplifyPLCfacets (2D)", "src/polytope_geometric_utilities.hh: collinear, uniquePoints", "src/polytope_internal.hh: computeSortedFaceEdges"]}
{"id": "C86", "title": "The sign of orient2d is the orientation of the points", "statement": "For all points with floating point coordinates, orient2d returns a positive number if they are in counter-clockwise order, a negative number if clockwise and zero if they are on one line, whatever the rounding errors.", "quantifier": "all triples of points with floating point coordinates, every precision of at least 10 bits, every rounding to nearest", "why_tests_cant": "The inputs on which rounding changes the sign are a set of measure near zero that random tests miss, and there are 2^384 triples of double points.", "anchors": ["src/predicates.cc: orient2d, orient2dadapt, exactinit, fast_expansion_sum_zeroelim, estimate", "src/polytope_geometric_utilities.hh: computeCircumcenter"]}
{"id": "C87", "title": "The error-free operations of the predicates are exact", "statement": "Once exactinit has been called, Two_Sum, Two_Diff, Fast_Two_Sum and Two_Product deliver the rounded result and a second number that is exactly its error, and the sum of two expansions of the sizes orient2d builds is exact: no bit is lost, no more numbers come out than went in, and the last of them has the sign of the sum.", "quantifier": "all pairs of floating point numbers, all pairs of expansions of at most twelve and, in all, at most sixteen numbers without overlap, every precision (20 bits or more for the expansions), every rounding to nearest", "why_tests_cant": "There are 2^128 pairs of doubles, and an error of one unit in the last place of the second number is invisible in any result but the sign of a nearly degenerate determinant.", "anchors": ["src/predicates.cc: Two_Sum, Two_Diff, Fast_Two_Sum, Split, Two_Product, exactinit, fast_expansion_sum_zeroelim"]}
{"id": "C88", "title": "Canned spheres and cylinders", "statement": "plc_sphere and plc_cylinder return a closed surface of triangles, the boundary of a convex solid between two spheres or cylinders: inside the one that was asked for, and around one that is smaller by an amount that goes to zero with the number of points.", "quantifier": "all centres, radii, lengths and numbers of points, all platforms", "why_tests_cant": "The inner and outer bounds must hold for every radius and resolution; whether two of the points get the same hash depends on the size, the resolution and the platform.", "anchors": ["src/polytope_plc_canned_geometries.hh: plc_sphere, plc_cylinder", "src/convexHull_3d.hh: convexHull_3d"]}
{"id": "C89", "title": "Simplifying the facets of a 3D PLC", "statement": "The 3D simplifyPLCfacets returns a PLC that bounds the same solid: each new facet takes the place of facets of the old one that lie in one plane and face in one direction, its corners are those at which their outline turns, it faces in the same direction and has the same area, so that the volume inside is the same; facets in one plane that touch are joined; no unused point is left, and the holes stay.", "quantifier": "all PLCs of convex facets in space, all numberings of the points, all tolerances", "why_tests_cant": "Which facets are joined and which way the result faces depends on the order of the points and the facets; the tests only use boxes.", "anchors": ["src/simplifyPLCfacets.hh: simplifyPLCfacets (PLC<3>)", "src/TetgenTessellator.cc: tessellate"]}
{"id": "C90", "title": "Boolean operations by way of Boost.Geometry keep the boundaries", "statement": "boost_union, boost_intersect, boost_subtract and boost_unionReduce hand Boost.Geometry polygons with exactly the boundaries of the given PLCs, holes included, and return one PLC for each polygon it answers with, with exactly that polygon's boundary, holes included. boost_within and boost_intersects put the question about the same boundaries.", "quantifier": "all PLCs whose facets and holes are closed loops, all answers of the library, debug and release builds", "why_tests_cant": "The conversions must be right for every number and order of facets and holes; the tests convert two squares without holes.", "anchors": ["src/PLC_Boost_2d.hh: ReducedPLCtoPolygon, ReducedPLCfromPolygon, boost_union, boost_intersect, boost_subtract, boost_unionReduce, boost_within, boost_intersects"]}
{"id": "C91", "title": "Clipping keeps every piece of the intersection", "statement": "boost_clip returns the piece of the intersection that contains the given point and appends all other pieces to the orphans, in order, so that no part of the intersection is lost.", "quantifier": "all PLCs whose facets are closed loops, all points, all answers of the library, debug and release builds", "why_tests_cant": "Which pieces there are and which contain the point depends on the library's answer; the case that loses a piece needs a point that two pieces share.", "anchors": ["src/PLC_Boost_2d.hh: boost_clip"]}
{"id": "C92", "title": "Polygon::queryPoint locates every point", "statement": "For a polygon of any shape queryPoint answers POINT_ON_VERTEX exactly at the vertices, POINT_ON_EDGE exactly at the other points of the sides, and otherwise POINT_INSIDE or POINT_OUTSIDE according to whether an odd or an even number of sides lies between the point and the outside, whichever way one goes out.", "quantifier": "all polygons with any number of vertices, convex or not, and all points of the plane (exact arithmetic)", "why_tests_cant": "the answer combines two crossing parities with half-open conventions at vertices and horizontal sides; a test can only sample shapes and points, and errors hide at points level with a vertex", "anchors": ["src/Polygon.hh:queryPoint"]}
{"id": "C93", "title": "Nearest intersection, projection and distance of Polygon", "statement": "closestIntersection returns the point of the polygon nearest to the first end of a segment along it and the edge it is on; project returns the nearest point of an edge; distanceToEdge is the distance to an edge; nearestEdge is the edge of least distance.", "quantifier": "all polygons, edges, points and segments (exact arithmetic)", "why_tests_cant": "continuous inputs; the errors are in single coordinates and in the last edge only", "anchors": ["src/Polygon.hh:closestIntersection", "src/Polygon.hh:project", "src/Polygon.hh:distanceToEdge", "src/Polygon.hh:nearestEdge", "src/Polygon.hh:nearestEdgePosition"]}
{"id": "C94", "title": "Bounding box and integer grid of QuantizedCoordinates", "statement": "After initialize(points, degeneracy) the box has every point in its interior and the ball of infiniteRadius() about center() in it; every point of the box is quantized to integers between 0 and coordMax() that name a grid point at most half a spacing away, and integers come back unchanged; expand() keeps the old box, the new bounds and the ball inside and the grid covering the box; the object, as a PLC, is the box; a spacing too fine for the integers is reported.", "quantifier": "all point sets on any number of processes, degeneracies, earlier histories of the object, points of the box, bounds passed to expand", "why_tests_cant": "the statements range over all real point sets, spacings and histories of calls; the defects show only for boxes away from the origin, extents of zero in the first coordinate or spacings near the integer limit", "anchors": ["src/QuantizedCoordinates.hh: initialize, expand, quantize, dequantize, isInner, projectPoint, degeneracy", "src/Point.hh: Point2, Point3"]}
{"id": "C95", "title": "Cells of generators on a line", "statement": "For two or more different generators on a line, given in any order, with all of them further inside the bounding circle than the tolerance, constructCells1d returns one cell per generator (in the generators' own numbering): a counterclockwise polygon around its generator whose corners lie on the circle and are no nearer to any other generator; every node is used, and the cells of neighbouring generators share one side, run through in opposite directions. The result does not depend on how the sort breaks ties.", "quantifier": "every number of generators, every order, every line and circle, every permutation a correct sort may return, with or without assertions", "why_tests_cant": "collinear inputs of every length, slope and order cannot be enumerated; the cell lists are assembled across loop turns", "anchors": ["src/polytope_tessellator_utilities.hh constructCells1d", "src/polytope_geometric_utilities.hh rayCircleIntersection", "src/polytope_geometric_utilities.hh unitVector", "src/Point.hh operator<"]}
{"id": "C96", "title": "Errors reach the handler that is set", "statement": "Every call of error() causes exactly one call of the handler set last, through setErrorHandler in C++ or polytope_set_error_handler in C, or of the default handler if none is set, with the given text and status; the default handler ends the program. After an error the failing tessellation is not continued.", "quantifier": "every sequence of setting handlers and errors, every text and status, handlers that return or not, every outcome of the Delaunay triangulation", "why_tests_cant": "histories of any length, and behaviour after a handler of the user returns", "anchors": ["src/ErrorHandler.cc error", "src/ErrorHandler.cc setErrorHandler", "polytope_c/polytope_c.cc polytope_set_error_handler", "src/TriangleTessellator.cc computeDelaunay"]}
{"id": "C97", "title": "Tessellating through the C interface", "statement": "The three tessellate functions of the C interface give the C++ tessellator the first dimension times num_points numbers, its box or its PLC, and the C mesh object then describes the mesh the C++ tessellator computed. polytope_tessellator_dimension and polytope_tessellator_name tell the dimension and the name.", "quantifier": "every tessellator (any function), dimension 2 and 3, all points, boxes, PLCs, previous contents of the mesh object", "why_tests_cant": "any tessellator and any mesh it may return; object lifetimes", "anchors": ["polytope_c/polytope_tessellator.cc polytope_tessellator_tessellate_unbounded", "polytope_c/polytope_tessellator.cc polytope_tessellator_tessellate_in_box", "polytope_c/polytope_tessellator.cc polytope_tessellator_tessellate_in_plc", "polytope_c/polytope_tessellator.cc polytope_tessellator_name"]}
{"id": "C98", "title": "The signs of orient3d, incircle and insphere", "statement": "After exactinit, orient3d, incircle and insphere always return, and the number has the right sign, whatever the rounding errors: that of the volume of the four points, positive inside and negative outside of the circle through three points in counter-clockwise order, positive inside and negative outside of the sphere through four points of positive volume. The versions that do not adapt return the determinant up to a small multiple of the unit roundoff times the products it is made of.", "quantifier": "all points, every precision of at least 10 bits (27 for the adaptive part of orient3d), every rounding to nearest with ties to even", "why_tests_cant": "The inputs on which a bound that is a few units too small lets a wrong sign through are too rare for random tests to find.", "anchors": ["src/predicates.cc: orient3d, orient3dadapt, orient3dfast, incircle, incircleadapt, incirclefast, insphere, insphereadapt, inspherefast, scale_expansion_zeroelim, exactinit", "src/TetgenTessellator.cc: orient3d calls"]}
{"id": "C99", "title": "The Python views of a mesh agree with the mesh", "statement": "xnodes, ynodes and znodes hold the coordinates of the nodes, one entry per node, and znodes raises in 2D. facesAsInts holds the faces. zoneNodes holds for every cell in 2D its ring of nodes in the order and direction in which the cell uses its faces, in 3D exactly the nodes of its faces, each once, which are those computeCellToNodes gives.", "quantifier": "every mesh of any size, in 2D with cells that are closed loops of faces, in 3D with consistent connectivity", "why_tests_cant": "meshes of any size and connectivity; the conversion to int only goes wrong beyond 2^31 nodes", "anchors": ["src/PYB11/Tessellation.py xnodes", "src/PYB11/Tessellation.py ynodes", "src/PYB11/Tessellation.py znodes", "src/PYB11/Tessellation.py facesAsInts", "src/PYB11/Tessellation.py zoneNodes"]}
{"id": "C100", "title": "Python arguments reach the C++ functions unchanged", "statement": "A Python list of D-tuples becomes the flat array of these points, so convexHull2d takes the hull of them; tessellateBox tessellates in the box with the given corners and raises if a corner is too short; writeTessellation2d and writeTessellation3d write a file that describes the mesh and holds exactly the fields of the dictionaries.", "quantifier": "all lists, tuples and dictionaries, all meshes, with and without assertions", "why_tests_cant": "ill-formed arguments (ragged tuples, empty or short lists) are too many to enumerate and their effect is silent", "anchors": ["src/PYB11/polytope_pybind11_helpers.hh copyCoords", "src/PYB11/polytope_pybind11_helpers.hh copyDictToMap", "src/PYB11/polytope_PYB11.py writeTessellation", "src/PYB11/polytope_PYB11.py convexHull2d", "src/PYB11/Tessellator.py tessellateBox"]}
{"id": "C101", "title": "A distributed tessellator tessellates where this call says", "statement": "Every call of a distributed tessellator object tessellates in the region passed to this call (no boundary, a box, a PLC or a reduced PLC), whatever calls were made on the object before: the cells that the processes get are those of their generators among the generators of all processes, inside this region.", "quantifier": "all histories of calls on an object, all boundaries, point sets, numbers of processes and serial tessellators", "why_tests_cant": "the number of histories, boundaries and distributions of points over processes is unbounded, and a boundary left over from an earlier call or renumbered wrongly shows only in some of them", "anchors": ["src/DistributedTessellator.cc tessellate", "src/DistributedTessellator.cc tessellationWrapper", "src/DistributedTessellator.cc computeDomainNeighbors"]}
{"id": "C102", "title": "Clipping a cell with Clipper2d loses nothing", "statement": "Clipper2d::clipCell leaves in the cell the piece of its intersection with the boundary polygon that has the generator, appends all other pieces to the orphans, and the cell and these orphans together are exactly the part of the cell in the domain; the cell does not meet itself.", "quantifier": "all cells, generators, boundary polygons with any number of pieces, and builds with and without assertions", "why_tests_cant": "the number and position of the pieces, which pieces touch the generator and where a ring meets itself are unbounded; no test in the repository uses the class", "anchors": ["src/Clipper2d.hh: Clipper2d::clipCell"]}
{"id": "C103", "title": "Tessellating in three dimensions gives a cell per generator", "statement": "Every call of tessellate of a three-dimensional tessellator, without boundary, in a box, a PLC or a ReducedPLC, leaves in the mesh one cell per generator, and tessellateDegenerate returns the numbers of these cells.", "quantifier": "all generators, boundaries, tessellators (the descendant's tessellateQuantized is arbitrary), and builds with and without assertions", "why_tests_cant": "the statement ranges over all generators, boundaries and descendants; the tests of the repository for 3D tessellators are not built", "anchors": ["src/TessellatorInline.hh: Tessellator::tessellate, tessellateDegenerate", "src/QuantizedTessellation3d.cc: construct, fillTessellation", "src/clipQuantizedTessellation3d.cc: clipQuantizedTessellation"]}
{"id": "C104", "title": "The intermediate mesh numbers its elements once and inverts its maps", "statement": "QuantTessellation::addNewNode, addNewEdge and addNewFace return the same index for two calls exactly when they add the same point, the same edge, or a face with the same edges, and the element is stored at that index once; nodeEdges, edgeFaces and faceCells are the exact inverses of the lists they invert, with direction and multiplicity; tessellation writes each face as the corners of its loop of edges and each node inside the box of the generators; assertValid accepts every valid mesh.", "quantifier": "all sequences of calls in any order, all meshes, all boxes, with and without assertions", "why_tests_cant": "the sequences, the sizes and the orders of the edges are unbounded; no test in the repository uses the class", "anchors": ["src/QuantTessellation.hh: QuantTessellation::addNewNode, addNewEdge, addNewFace, nodeEdges, edgeFaces, faceCells, tessellation, assertValid"]}
{"id": "C105", "title": "Topology of an unbounded mesh from rings of nodes", "statement": "Given for every generator the ring of its nodes, in either direction, the utility that builds an unbounded planar mesh gives every cell its ring counter-clockwise as a closed loop of directed faces, makes one face per pair of neighbouring nodes, gives faceCells as the exact inverse of cells, and lists as infinite the faces that one cell alone knows. A checked build accepts the result exactly if the ends of those faces are marked as infinite nodes.", "quantifier": "every number of nodes and generators, every list of rings, every position of the generators", "why_tests_cant": "the faces are shared between any number of rings in any order and direction", "anchors": ["src/polytope_tessellator_utilities.hh: constructUnboundedMeshTopology", "src/polytope_internal.hh: hashEdge, addKeyToMap"]}
{"id": "C106", "title": "Crossings of a segment and a bounding box", "statement": "The utility that intersects a segment with a bounding box reports every side that the segment crosses, each with the crossing point.", "quantifier": "every box, segment and tolerance", "why_tests_cant": "the loss depends on the position of the segment and on the side that was met before", "anchors": ["src/polytope_tessellator_utilities.hh: intersectBoundingBox", "src/polytope_geometric_utilities.hh: segmentIntersection2D"]}
{"id": "C107", "title": "Arithmetic of quantized points", "statement": "Points add, subtract, scale and divide as vectors, keeping the identity of the left operand; what was added can be subtracted and a multiple divided to get the very point back; negating twice gives the point back; dividing coarsens the grid uniformly; operations are defined exactly where the coordinate type holds the result.", "quantifier": "every signed integral coordinate type, all points and factors, in the plane and in space", "why_tests_cant": "the failures sit at the ends of the range, at zero and in a field that equality ignores", "anchors": ["src/Point.hh: Point2, Point3"]}
{"id": "C108", "title": "Simplifying the polygons of adopted cells keeps the polygon", "statement": "Before and after orphans are adopted, points that lie on a straight line between their neighbours, and points that are too close to the next one, are removed from the polygon of a cell: its corners and its holes stay, and the polygon that is left is a closed loop.", "quantifier": "every polygon of integral points, every tolerance", "why_tests_cant": "which points go depends on the positions of three points each, and on how a tolerance for real numbers acts on integers", "anchors": ["src/BoostOrphanage.cc: removeCollinearPointsFromPLC, simplifyPLC", "src/polytope_geometric_utilities.hh: collinear"]}
{"id": "C109", "title": "Boundaries and cells converted for Boost.Geometry", "statement": "The polygon made from a boundary has as rings the closed loops of its facets and of its holes, however the facets are listed and whatever the polygon held before; the ring made from a cell of a mesh has the quantized nodes of the cell in the order of its directed faces.", "quantifier": "every boundary with any number of facets and holes, every mesh, every quantization", "why_tests_cant": "rings of any length, facets in any order, polygons in any state", "anchors": ["src/polytope_tessellator_utilities.hh: constructBoostBoundary, convertTessellationToRings"]}
{"id": "C110", "title": "Orphans are adopted by the cells beside them and nothing is lost", "statement": "After orphaned pieces of cells are adopted there are as many cells as before; a cell that has no point in common with an orphan is unchanged; an orphan beside one cell only becomes part of that cell; a vertex of a cell that was made anew is moved only to a vertex of the old cell within the tolerance; no area is lost.", "quantifier": "every list of cells and orphans, every result of the union of polygons and of the tessellation of the neighborhood", "why_tests_cant": "cells and orphans of any number and shape, and a union and a tessellation from outside", "anchors": ["src/BoostOrphanage.cc: adoptOrphans, getPoint"]}

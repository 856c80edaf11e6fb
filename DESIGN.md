# Formal model of polytope: design

The model is written in Lean 4 (project `lean/`), from reading `/repo` as text. Nothing of the C++ is executed.

## Layout

* `lean/Verif/Model/*.lean`: executable definitions. Each one cites the file and lines in `/repo` it models and says
  where it simplifies.
* `lean/Verif/Spec/*.lean`: small specifications that do not use the model's helpers (what "consistent mesh", "closed
  loop", "same geometry" mean).
* `lean/Verif/Proofs/*.lean`: helper lemmas.
* `lean/Verif/Props/*.lean`: the property theorems, named `Cnn_...`, each with an `example` that a concrete non-trivial
  case meets its hypotheses. Counterexamples to properties the code violates are theorems too (`Cnn_..._fails`), next to a
  `_partial` theorem for the part that holds.

## Modelling conventions

* **Outcomes.** C++ code that can assert or go out of bounds is modelled in `Res`: `ok v`, `abort` (a `POLY_ASSERT`
  failed; only with `dbg = true`, i.e. without `NDEBUG`), or `ub` (undefined behaviour: out-of-bounds access etc.).
  Properties that speak about return values prove that the outcome is `ok`, so freedom from UB is part of them.
* **Integers.** `int`/`unsigned` are unbounded `Int`/`Nat`, except where a property is about width (serialized lengths,
  quantized coordinates, hashes, Morton keys): there the width is explicit.
* **Reals.** `RealType` is an arbitrary linearly ordered field (or `ℝ`, where square roots are needed). Floating point rounding is not
  modelled: every geometric theorem is about exact arithmetic. This is the largest gap between model and code, and it
  is stated again in the note of each claim it affects.
* **Containers.** `std::vector` is `List`; `std::map`/`std::set` are sorted or duplicate-free lists, or functions, as
  stated at each definition. Iteration order of `std::set`/`std::map` is increasing key order and is kept where it matters.
* **External code.** Boost.Polygon, Triangle, Tetgen, Voro++ and the MPI library are not modelled. Where the code
  post-processes their results, those results are arbitrary inputs of the model. MPI is modelled as reliable, ordered,
  typed point-to-point channels and collectives.

## Trusted base

* Lean 4.33.0's kernel, and the three standard axioms `propext`, `Classical.choice`, `Quot.sound`. No other axiom is used;
  there is no `sorry`, no `native_decide`, no `bv_decide`. (`decide` is used for closed counterexamples and small finite facts.)
* `AXIOMS.md` lists the axioms of each theorem as Lean prints them.
* The reading of the C++: the correspondence between a definition and the cited lines is by inspection.
* The conventions above.

## What is modelled and what is not

All source files of `/repo/src` are listed. "Whole" means every function of the file; lines refer to `/repo/src`.

| file | modelled | in | not modelled |
|---|---|---|---|
| `polytope_serialize.hh` | whole | `Model/Serialize` | |
| `Point.hh` | order, equality, hash keys, quantizing constructors, serializers, arithmetic | `Model/Points`, `Model/PointArith`, `Model/Quant`, `Model/Serialize` | stream output, arithmetic of other than signed integral coordinates |
| `Segment.hh` | serializer | `Model/Serialize` | |
| `KeyTraits.hh`, `KeyTraits.cc` | whole | `Model/Points` | |
| `mortonOrderIndices.hh` | whole | `Model/Points` | |
| `IntPointMap.hh` | whole | `Model/IntPointMap` | |
| `Tessellation.hh` | data, `empty`, `clear`, `computeNodeCells`, `computeCellToNodes` | `Model/Mesh` | stream output |
| `deleteCells.hh`, `findBoundaryElements.hh` | whole | `Model/Mesh` | |
| `polytope_internal.hh` | `addKeyToMap`, `hashEdge`, sorted face edges, assertions | `Model/Internal`, `Model/Cxx` | abort message |
| `removeElements.hh`, `bisectSearch.hh` | whole | `Model/Internal` | |
| `MeshEditor.cc` | `deleteCells`, `cleanMesh`, masks, `cleanEdges` serial and on several processes | `Model/Editor`, `Model/EditorEdges`, `Model/EditorPar` | L865-1374 are commented out in the source |
| `PLC.hh`, `ReducedPLC.hh`, `makeBoxPLC.hh` | whole | `Model/PLC` | stream output |
| `polytope_plc_canned_geometries.hh` | boxes, circle, sphere, cylinder | `Model/PLC`, `Model/Canned` | rounding of the coordinates |
| `polytope_geometric_utilities.hh` | L55-279 hashes, L280-444 vectors, L449-568 segments and polygons, L600-681 boxes, L683-922 rays, L927-1037 and L1228-1345 measures, L1058-1188 centres, L1193-1226, L1350-1389 unique points, L1395-1583 | `Model/Hash`, `Vec`, `Query`, `Polygon`, `Box`, `Ray`, `Measure`, `Circum`, `PLC`, `Convex` | `unhashPosition` 3D in full, adaptive predicates |
| `nearestPoint.hh`, `intersect.hh`, `within.hh` | whole (2D) | `Model/Query`, `Model/Polygon` | |
| `convexWithin.hh`, `convexIntersect.hh`, `convexHull_2d.hh` | whole | `Model/Convex`, `Model/Hull` | |
| `QuantizedTessellation2d.cc`, `QuantizedTessellation3d.cc` | whole | `Model/Quant` | |
| `BoostTessellator.cc` | the read-out of the diagram L64-173 | `Model/Readout` | the Voronoi construction (Boost.Polygon) |
| `clipQuantizedTessellation2d.cc` | polygons for Boost.Polygon and choice among its results L84-199, numbering and compaction L121-432 | `Model/Bounded`, `Model/Readout` | intersections and unions (Boost.Polygon), which cells adopt orphans |
| `clipQuantizedTessellation3d.cc` (a stub) | whole | `Model/Driver3` | |
| `snapToBoundary.cc` | whole | `Model/Snap` | diagnostic message |
| `PLC_CSG_2d.hh` | whole | `Model/Bsp`, `Model/Csg2` | pointers of the tree become a value; recursion of `build` takes fuel (`build_some` shows enough fuel exists) |
| `PLC_CSG_3d.hh` | planes, polygons, splitting, trees, `ReducedPLCtoPolygons`, public operations, `ReducedPLCfromPolygons` up to its first hash (L467) | `Model/Bsp`, `Model/Csg3`, `Model/Csg3Out` | the rest of `ReducedPLCfromPolygons`, an arbitrary continuation in the model; it is never reached in a defined execution (`C67_returns_fails`) |
| `SerialDistributedTessellator.cc` | L70-215 generator exchange, owner of a cell, shared nodes and faces, removal of foreign cells | `Model/Parallel` | the serial tessellator itself (any function), MPI_Bcast delivers the root's bytes |
| `DistributedTessellator.cc` | L772-829 bounding box, L237-307 exchange of generators, L341-560 communication info, deletion of cells of others and removal of neighbours, L585-735 exchange of shared nodes (all schedules of non-blocking sends and blocking receives); L190-560 the whole of computeDistributedTessellation composed of these parts (`Model/Distributed`); L127-182 the public calls, L745-769 and L952-978 the dispatch of the serial tessellations with and without boundary, and the copy of a PLC (`Model/DistBoundary`); L835-1029 choice of neighbours (2D); `DimensionTraits.hh` `faceCentroid`, `hullDimension` (2D) | `Model/Box`, `Model/Mpi`, `Model/Exchange`, `Model/Comm`, `Model/Neighbors` | the serial tessellator and the hull (any functions with the stated properties); all processes pass the same boundary |
| `TriangleTessellator.cc` | L140-257 helpers, L353-505 `tessellateQuantized` after the call of Triangle | `Model/Triangle` | the triangulation (library Triangle, an input); the error paths L123-135 are in `Model/Errors` |
| `TessellatorInline.hh` | L11-33 `tessellate` and L101-120 `tessellateDegenerate` without boundary; L38-84 and L122-173 in a rectangle or a PLC, in 2D | `Model/Driver`, `Model/Bounded`, in 3D whole in `Model/Driver3` | |
| `checkDistributedTessellation.hh` | whole (face checks are commented out in the source) | `Model/DistCheck` | message texts (any non-empty text), bytes of buffers |
| `polytope_c/polytope_tessellation.cc`, `polytope_c/polytope_tessellator.cc`, `polytope_c/polytope_plc.cc` | whole | `Model/CApi`, `Model/Errors` | the tessellators behind the C objects (any functions), texts of the print functions |
| `ErrorHandler.cc`, `ErrorHandler.hh`, `polytope_c/polytope_c.cc` | whole | `Model/Errors` | output of the default handler |
| `polytope_internal_abort.cc`, `polytope_parallel_utilities.hh`, `polytope.hh.in` | abort as an outcome, `allReduce` | `Model/Cxx`, `Model/Box` | output |
| `convexHull_3d.hh` | whole | `Model/Hull3` | unsigned overflow, rounding |
| `SiloWriter_2d.cc`, `SiloWriter_3d.cc`, `SiloUtils.cc`, `SiloUtils.hh` | `write`, `writeTagsToFile`, `writeFieldsToFile`, the baton functions | `Model/Silo`, `Model/SiloParallel` | the Silo library below its `DBPut` calls, cycle and time, `traverseConvexHull` (never called) |
| `polytope_c/polytope_write_silo.cc` | whole | `Model/SiloC` | prefix, directory, cycle, time, several processes |
| `src/PYB11/Tessellation.py`, `Tessellator.py`, `polytope_PYB11.py`, `polytope_pybind11_helpers.hh` | the C++ code in them, except `convexHull3d` and the printing functions | `Model/Python` | generated glue of PYB11Generator and pybind11, conversions of single values, other binding files (no code of their own but tuples of two or three numbers) |
| `polytope_write_OOGL.hh` | whole | `Model/Oogl` | printing of numbers |
| `predicates.cc` (Shewchuk) | macros L168-274 that `orient2d` uses, `exactinit`, `fast_expansion_sum_zeroelim`, `estimate`, `orient2dadapt`, `orient2d`, `orient2dfast` L1429-1438, `orient2dexact` L1440-1480 | `Model/Predicates`, `Model/PredicatesExact` | overflow, underflow, NaN, FPU control words |
| `predicates.cc`, predicates in space and on circles | first stages of `orient3d` L2266-2305, `incircle` L3179-3219, `insphere` L4087-4186, `orient3dfast` L1665-1684, `incirclefast` L2333-2354, `inspherefast` L3248-3290 | `Model/Predicates3` | the `exact` and `slow` versions (of `orient2d` too the `slow` one) |
| `predicates.cc`, the adaptive parts of these | `scale_expansion_zeroelim` L1296-1334, `orient3dadapt` L1855-2107, `incircleadapt` L2610-2690, `insphereadapt` L3872-3959: each up to the first sum of expansions in arrays that were never written | `Model/PredicatesAdapt` | what comes after that sum, which always has undefined behaviour (a parameter) |
| `TetgenTessellator.cc` (does not compile at this commit), `VoroPP_2d.cc`, `VoroPP_3d.cc` (commented out of the build), `SiloReader_2d.cc`, `SiloReader_3d.cc` (cannot be used: they test `HAVE_SILO` before it is defined and look for an array `connectivity` where the writer writes `conn`), `polytope_c/polytope_read_silo.cc` (needs them), `RegisterBoostPolygonTypes.hh` | | | not modelled |
| `simplifyPLCfacets.hh` | 2D: L25-134; 3D: L139-352 | `Model/Simplify`, `Model/Simplify3` | real numbers for the coordinates |
| `PLC_Boost_2d.hh` | whole | `Model/BoostGeo` | Boost.Geometry (arbitrary functions) |
| `Polygon.hh` | whole | `Model/PolygonClass` | rounding |
| `QuantizedCoordinates.hh` | whole, except the constructor from points (it calls a missing overload) | `Model/QuantCoords` | rounding; loops that only assert are one assertion |
| `polytope_tessellator_utilities.hh` | `constructCells1d` (L303-423) | Model/Cells1d | |
| `polytope_tessellator_utilities.hh` | `constructBoostBoundary`, `convertTessellationToRings` (L128-222) | Model/BoostConvert | `correct` and `intersects` of Boost.Geometry and the quantizing constructor are arbitrary functions; neither function has a caller |
| `polytope_tessellator_utilities.hh` | `constructUnboundedMeshTopology`, `intersectBoundingBox` | Model/Unbounded | the value of `orient2d` is an arbitrary function of two nodes and a generator; neither function has a caller, and `infNodes` and `infFaces` are no members of `Tessellation`, so they are lists of their own here |
| `Clipper2d.hh` | whole | `Model/Clipper` | Boost.Geometry (a parameter), messages |
| `QuantTessellation.hh` | `addNewNode`, `addNewEdge`, `addNewFace`, `nodeEdges`, `edgeFaces`, `faceCells`, `tessellation`, `assertValid` | Model/QuantTess | the hashing of positions is that of Model/Hash; the copies of `infNodes` and `infFaces` (no such members in `Tessellation`) are left out |
| `BoostOrphanage.cc` | `removeCollinearPointsFromPLC`, `simplifyPLC` L92-154, `getPoint` L159-165, `adoptOrphans` L305-572 | `Model/Orphanage`, `Model/Adopt` | the file is not in the list of sources that are built; Boost.Geometry and the tessellation of a neighborhood (parameters), `constructBoostVoronoiCells` (unfinished, with marks of what is to do), `cleanRingEdges` (its calls are commented out); overflow |
| `OrphanageBase.hh`, `BoostOrphanage.hh`, `BoostTessellatorTraits.hh`, `timingUtilities.hh` | | | not modelled |

## Plan per property

| id | property | plan |
|---|---|---|
| C01 | Serialize/deserialize round trip | Universe of type codes (`Ty`) with a byte-level serializer over a buffer and cursor; round trip by induction on the type code and on list lengths. |
| C02 | Message streams decode to exactly the sequence that was encoded | Message = list of typed values. Prefix rejection from two lemmas: success is stable under extending the buffer, and the cursor never passes the end. |
| C03 | Deserializing replaces the destination's contents | False of the code for a non-empty destination (vectors append). Counterexample plus `_partial` for fresh destinations, plus the exact append behaviour. |
| C04 | Deleting cells keeps the mesh topologically consistent | `deleteCells` as loops in `Res`; `Consistent` in Spec with signed multiplicities; proved by characterising the renumbering as the rank function of the mask. |
| C05 | Deleting cells does not change the surviving cells | Same model; walk of a cell = list of oriented lists of node coordinates; equality of walks. |
| C06 | Deleting cells leaves no orphans and drops nothing in use | Same model; used-by relations before and after. |
| C07 | Deleting cells in two steps equals deleting them in one | Composition of masks; equality of the two resulting meshes from uniqueness of ranks. |
| C08 | Deleting cells keeps the communication lists pointing at the same geometry | Same model; element-wise statement about the filtered lists, and a two-process agreement corollary. |
| C09 | Deleting cells keeps the boundary lists valid | False of the code: the lists are not updated. Counterexample, plus `_partial` (they stay valid when nothing is deleted). |
| C10 | MeshEditor::deleteCells removes exactly the requested cells | False of the code: out-of-bounds write. Model of `computeMasks`/`cleanMesh`; UB witness; `_partial` for trailing deletions. |
| C11 | Node-to-cell and cell-to-node queries are exact inverses | Loops building per-node sets; membership characterised both ways. |
| C12 | Boundary detection is exact | Loop plus sort/unique; exactness and sortedness. |
| C13 | A cleared tessellation is empty and reusable | Record with all fields; clear gives the default record; `empty` ignores the parallel lists (counterexample recorded). |
| C14 | Removing elements by index keeps the rest in order | In-place two-cursor loop modelled step by step; result equals filter by index; old2new map characterised. |
| C15 | Bisection search brackets the value | Loop with fuel-free well-founded recursion over `ju - jl`; ascending proved; descending at ties fails (counterexample). |
| C16 | Keys are numbered densely and stably | Fold of `addKeyToMap` over any list of keys. |
| C17 | Edge keys identify unordered node pairs | Integer arithmetic lemmas. |
| C18 | Tolerant point map never merges far points and never loses an exact one | Sorted association lists per coordinate; invariant over query histories; 3D `have` counterexample. |
| C19 | Morton keys identify quantized positions | 32-bit bitvector model with the platform's shift and addition as parameters; undefined under the language rules; on a wrapping platform the key bits are characterised; collisions beyond 16 bits and in 3D. |
| C20 | Edge sorting around a face yields a closed oriented loop | Walk modelled with edge-index sets; closed case proved, gap case fails for some orders (counterexample). |
| C21 | Degenerate generators map to one cell per distinct position | Quantized first-appearance numbering. |
| C22 | A reduced PLC describes the same geometry as the PLC it came from | Renumbering through the sorted set of used ids; holes are not remapped (counterexample), hole-free case proved. |
| C23 | Generated boxes are valid closed outward-oriented boundaries | Literal tables; directed edge matching by enumeration of the fixed table, measure by `ring`. |
| C24 | Generated circle boundaries are closed loops | Facet list `i, (i+1) mod n`; closedness for all n; radius from cos²+sin²=1. |
| C25 | Extracting one cell as a PLC keeps its geometry | Model of both dimensions; equality of coordinate walks. |
| C26 | Circumcentres are equidistant | Field identities, `field_simp; ring`/`linear_combination`. |
| C27 | Cell areas add up to the area of the boundary | Sum over cells rearranged as sum over faces through the consistency relation. |
| C28 | Area and centroid do not depend on where the cell is | Sums over closed loops; telescoping. |
| C29 | Closest-point queries are optimal | Quadratic minimisation on [0,1]; minimum over facets. |
| C30 | Segment intersection is sound and complete | Cramer's rule; both directions. |
| C31 | Point-in-polygon answers do not depend on how the polygon is listed | Parity of crossings as a fold; rotation/reversal/translation invariance. |
| C32 | Convex containment and overlap tests of polygons are right | Separating-line argument over an ordered field. |
| C33 | The 2D convex hull contains every input and is convex | Monotone chain as stack operations; invariants. |
| C34 | Ray casting returns points on the surface and on the ray | Quadratics over the reals; plane test counterexample. |
| C35 | Bounding boxes are tight | Fold of min/max; monoid argument for distribution independence. |
| C36 | Quantization error is bounded and in range | Floor arithmetic over an Archimedean ordered field with explicit 32-bit range. |
| C37 | Position hashes identify positions | Bit-field packing over fixed widths; collision witness for the 32-bit key. |
| C38 | Cells read out of a Voronoi diagram are closed edge loops on shared edges | Readout loop with maps as state; invariant over all rings. |
| C39 | Filling the output mesh gives consistent face/cell adjacency | Fill loop; signed counting. |
| C40 | Compaction after clipping preserves the cells | Compaction with removeElements; walks preserved. |
| C41 | Snapping to the boundary moves only boundary nodes and only slightly | Two-phase loop over node and point lists; frame and displacement invariants. |
| C42 | Splitting by a line or plane loses and reverses nothing | Field identities; 2D reversal counterexample; 3D area preservation. |
| C43 | Inverting a solid twice is the identity | Structural induction on trees. |
| C44 | Clipping keeps exactly what is outside the solid | Structural induction on trees with half-plane membership. |
| C45 | Building a BSP terminates and keeps all the geometry | Well-founded recursion on list length; multiset of elements. |
| C46 | Every cell is owned by exactly one process | upper_bound on offsets; partition of the index range. |
| C47 | Two processes agree on what they share | Shared lists as filters of the global mesh; renumbering is monotone. |
| C48 | After the ownership exchange all sharers hold identical coordinates | State = coordinates per process; messages computed from the initial state; any delivery order gives the same result. |
| C49 | Distributed tessellation without communication info is memory safe | Index reads as `Res`; UB witness; `_partial` with the flag set. |
| C50 | All processes reach the same, correct verdict on a distributed mesh | Processes as programs over collective operations (free monad) with a joint big-step semantics; verdict "ok" iff `Sharing` and nonempty lists; report with wrong index is undefined. |
| C51 | Edge cleaning collapses each node at most once | Fold over edges with node mask state; matching invariant. |
| C52 | Points are totally ordered and equality agrees with the order | Order axioms; counterexample for the fuzzy comparator. |
| C53 | Edge cleaning leaves a valid mesh | `Merged` relation between old and new mesh; loops are preserved, at least half the sides remain; counterexamples for three sides and for the boundary. |
| C54 | Cell volumes add up to the volume of the boundary | Tetrahedra over an arbitrary point; the reference point drops out by cancellation of directed sides; interior faces cancel; counterexample for short edges. |
| C55 | Crossings of a segment with a PLC boundary are counted | Loop over facets; soundness of each reported point; horizontal segments lose crossings (general theorem). |
| C56 | The collinearity test of a point cloud looks at every point | Index loop with checked reads; 2D exact, 3D skips a point and reads past the end of two points. |
| C57 | between() recognises the points of a segment | Field identities; completeness for segments longer than the tolerance, soundness for all, counterexample for short segments. |
| C58 | The boundary test of a polygon finds exactly its sides | Loop equals existence over the closed list of sides; completeness exact, soundness with an explicit distance bound; every slanted side has a false positive. |
| C59 | within() decides membership in a boundary with holes | Reduction to the polygon theorems for consecutively numbered loops; for others the facets are ignored or memory is read past the end (general theorems). |
| C60 | Convex containment and overlap tests of solids are right | False of the code (wrong normal component; the edge directions are never effective). General counterexample and literal ones, exact description of what is decided, and partial theorems for facets whose normal comes out right. |
| C61 | The validity check of a PLC is exact | Model/PLC valid; Props/PLC C61_*; proved. |
| C62 | Centroids of triangles and tetrahedra divide them evenly | Ring identities over an arbitrary ordered field. |
| C63 | Boolean operations return the right boundary | BSP trees with In/Out; laws of splitting; convex polygons make a chain; general and concrete counterexamples. |
| C64 | The result of a boolean operation is again a polygon | Counterexamples evaluated by the kernel; general theorem for disjoint convex polygons. |
| C65 | Every process receives the generators of all its neighbours | transition system of all interleavings (`Model/Mpi`), instantiated with the generator exchange; invariant and progress proof |
| C66 | Processes derive matching lists of shared nodes and faces | Per process: loops over faces and nodes compute exactly the elements between cells of two owners, sorted by quantised position; across processes: equal key sets sorted strictly give equal lists. 3D: face key reads out of bounds. |
| C67 | Boolean operations on solids return the right boundary | Convex solids: facets become fans of coplanar triangles, the tree is a chain of groups; laws of splitting of C42_3d. Solids of any shape (`C67_any_…`): a solid is a set whose boundary the facets are (`Bounds`: ways in and out meet a facet, facets face outward); the tree built with tolerance 0 decides the set off its boundary, by induction over `build`; a computation with small enough tolerance takes the same branches as one with tolerance 0; directions of the polygons by an invariant of splitting, clipping and inverting. That the result is the boundary of the union, difference or intersection (`…_boundary_partial`): what clipping keeps has free space just in front of it (the rule for coplanar polygons acts like moving the polygon a little along its normal); a way that meets no polygon of the result is moved into general position (`Gordan.lean` separates it from the polygons, `general` keeps it off all edges) and followed from plane to plane. General refutation for the conversion back to a PLC. |
| C68 | The cells of the triangle tessellator are dual to the triangulation | Model/Triangle models the whole of tessellateQuantized after the call of Triangle, whose result is an input. Spec/Triangle has fans and duals. The proof follows the tables of the first loop (TriScan), the sides of one cell (TriCell), their order (TriLoop), the numbering over all cells (TriCells) and the dual (TriDual). |
| C69 | Sides of the cells of the triangle tessellator: direction and length | From the dual of C68. The first claim is proved; the other two are refuted for whole classes of triangulations. |
| C70 | tessellate without boundary returns the Voronoi mesh | Model/Driver composes the models of the quantized mesh, the triangle tessellator, fillTessellation and findBoundaryElements. Spec/Voronoi says what a Voronoi mesh is. TriBox shows that circumcentres stay in the frame, TriVoronoi that the fan of triangles from the generator to the sides of its cell covers exactly the Voronoi region. |
| C71 | Inside the bounding box the cells are those of the generators alone | From C70: the frame points are at least two box sizes away from the box, generators at most one and a half. |
| C72 | tessellateDegenerate tessellates the distinct generators and maps every generator to its cell | Model of L101-120 on top of the models of uniquePoints (C21) and tessellate (C70). Composition of the two theorems: the unique generators of all processes lie within the original box, so the second call cannot fail. The claim about the tolerance is refuted with the key collisions of C37. |
| C73 | Tessellating inside a boundary gives one cell per generator and puts the boundary nodes on the boundary | Model of L38-84 with the tessellator and Boost.Polygon as parameters, on top of the models of the quantizer (C36), the readout of clipped polygons (C38), the fill (C39), boundary detection (C12) and snapping (C41). Composition: if the intersections are single polygons that fit together, merging vertices at most 2 grid steps apart keeps the mesh consistent, and snapping moves boundary nodes only. |
| C74 | Meshes through the C interface | Model of both directions of fill_tessellation over blocks whose entries may be unwritten; the compressed rows are proved by induction on the rows; the round trip holds but for the convex hull and the second cell ~0 = -1. |
| C75 | Memory of a C mesh object | Model of the pointers of the object and of the allocated blocks; ownership invariant over every call; false in general, and exactly characterised: safe iff the object holds a mesh whenever it is cleared or freed. |
| C76 | Building a PLC by C calls | Model of every call; specification by counting and filtering the history; induction on the history; invalid numbers abort or are undefined. |
| C77 | Neighbouring processes are chosen symmetrically and completely | function by function model over any hull and mesh; exactness of the list, symmetry; geometry of hidden cells; counterexample with three processes |
| C78 | A distributed tessellation is the serial one cut into pieces | composition of the models of C77, C65, C66, C49 and C48; Voronoi geometry over any ordered field: locality of cells, corners and sides of neighbouring cells; the counterexample of C77 continued to overlapping cells |
| C79 | The convex hull of points of space | loop invariant: a closed star-shaped triangle surface around an inner point with all its corners below each facet; the horizon seen from the next point is one closed loop around the visible part; exactness through a separating linear functional (Mathlib's geometric Hahn-Banach); failure of repeated points and of the hash shift |
| C80 | A Silo file holds the mesh, its fields and its tags | A file is the record of the arguments of the Silo calls (`Model/Silo`). The specification reads the mesh back out of the arrays as the Silo manual describes them (`Spec/Silo`). Two meshes with the same file are proved equal. |
| C81 | A parallel dump can be read from its master file | The baton of a group is passed along the group; each process opens or makes the file of its group; the disk is a map from directories, groups and names to files (`Model/SiloParallel`). Proved: exactly when all meshes are reached. |
| C82 | An OFF file is valid and holds the whole PLC | A file is a list of numbers; a reader for the OFF format is the specification (`Spec/Oogl`), and reading what was written is proved to give back the points and facets, or shown to fail. |
| C83 | Writing a Silo file from C | The maps are sorted association lists, the vectors of tags are numbered blocks (`Model/SiloC`). The result is reduced to C80 through the import of C74. |
| C84 | Cleaning short edges on several processes | The parallel block is a program over the message model of C35 (`Model/EditorPar`). Exchange invariant for paired processes; the merges of both sides are compared through the shared numbering; four `_fails` theorems. |
| C85 | Simplifying the facets of a 2D PLC | Model/Simplify.lean over the models of uniquePoints, collinear and computeSortedFaceEdges; the walk as a tour around a periodic ring of corners; induction on the walk for what is kept and for the area |
| C86 | The sign of orient2d is the orientation of the points | Model/Predicates.lean: every operation followed by an abstract rounding to nearest in p bits. Error analysis of the three tests over the rationals; exactinit by induction on its loop; the state before exactinit as a separate theorem; counterexamples for every p; the last stage with any number for the element read past the end, by an invariant of the merge of two expansions (Proofs/FloatMerge, Proofs/FloatLast). |
| C87 | The error-free operations of the predicates are exact | Knuth's, Dekker's and Veltkamp's theorems for every precision, over the rationals with grids of multiples of powers of two (Proofs/FloatSum, Proofs/FloatProd); the merge of two expansions by an invariant that bounds the running sum by the numbers merged so far. |
| C88 | Canned spheres and cylinders | model of both functions over the real numbers on top of the model of C79; the outer bound from convexity, the inner one from support functions (some point is near to each direction); four points of a cylinder span zero or a volume that is a product of three sines, so they are separated when there are not too many; failure when hashes agree, always so on a platform where nothing is left after a shift by 42 bits |
| C89 | Simplifying the facets of a 3D PLC | Model/Simplify3.lean with the tests on points as parameters, over the models of uniquePoints and computeSortedFaceEdges; the groups by induction over the loop; the outline of a group as the sides that appear once; the area by cancelling inner sides, pair by pair, and by induction over the corners that are left out; the volume from the areas, as each group is in one plane; a transfer lemma to rational points, so that concrete runs can be calculated by the kernel. C89_flats: a closed walk is known by its edges up to its start and direction, so that the walk of the run is the given outline; the loop by induction with the flat parts that are done and those to come |
| C90 | Boolean operations by way of Boost.Geometry keep the boundaries | Model/BoostGeo: the library is a record of arbitrary functions. Rings and facets related by a specification of the drawn segments; induction over facets, holes and pieces. |
| C91 | Clipping keeps every piece of the intersection | The loop over the pieces by induction: the index it keeps is that of the last piece touched, its orphans are the filter of the others. |
| C92 | Polygon::queryPoint locates every point | Model/PolygonClass: the loop with its two counts. Proved by comparing the counts side by side with functions of the corners that cancel around the polygon; the even-odd rule is stated with segments to the outside (Spec/Crossing), not with the code's ray. |
| C93 | Nearest intersection, projection and distance of Polygon | Model/PolygonClass. closestIntersection by a loop invariant (first of the nearest so far); the others refuted in general. |
| C94 | Bounding box and integer grid of QuantizedCoordinates | Model of the class over functions of the axis for any dimension; boxes from C35; rounding lemmas on floor and ceiling; the defects as general negations. |
| C95 | Cells of generators on a line | exact model over the reals of the function after the sort, the sort being any permutation without inversions; loop invariant in coordinates along the line; C34_circle for the rays |
| C96 | Errors reach the handler that is set | the two static pointers as a state machine; runs of programs against the list of expected calls; computeDelaunay with the handler, composed with the model of tessellateQuantized |
| C97 | Tessellating through the C interface | tessellators as arbitrary functions, objects with two optional pointers; composed with C74_export |
| C98 | The signs of orient3d, incircle and insphere | A forward error analysis with the sums of absolute values that the functions compute next to the determinants: an approximation relation closed under sums, products and rounding, applied to the expressions of the code (Proofs/FloatApprox, Proofs/FloatFilter). For the adaptive parts: `scale_expansion_zeroelim` keeps the components apart (Proofs/FloatScale), sums of up to 24 components are expansions (Proofs/FloatLong), `estimate` has the sign of the sum (Proofs/FloatEstimate). Partial: the second and third test of `orient3dadapt` for points whose differences need rounding. |
| C99 | The Python views of a mesh agree with the mesh | Model the property lambdas on `Tess`. Coordinates by index arithmetic, rings with the specification of polygonal cells of C80, 3D zones by sortedness and membership through sort and unique. Node numbers from 2^31 on come out negative (proved). |
| C100 | Python arguments reach the C++ functions unchanged | Model the conversions and compose them with the Silo writers (C80) and the 2D hull (C33). Ragged tuples pass silently, empty fields are undefined, short fields are read past the end, long corners are cut (all proved). |
| C101 | A distributed tessellator tessellates where this call says | Model the members that hold the boundary, the public calls, the two dispatches and the renumbered copy of a PLC. Prove that the copy has its facets at the same places, that a call does not depend on earlier ones and that both dispatches use the region of this call, and compose with C78. Holes do not reach the search of neighbours. |
| C102 | Clipping a cell with Clipper2d loses nothing | Boost.Geometry's answers are a parameter that is right about the areas of rings (Spec/Clipper). Model/Clipper has clipCell; the loop over the pieces by induction; the cases in which a part is lost are refuted in general. |
| C103 | Tessellating in three dimensions gives a cell per generator | Model/Driver3 has the eight calls with the stubs they reach. False of the code: refuted for every input, in both kinds of build. |
| C104 | The intermediate mesh numbers its elements once and inverts its maps | Model/QuantTess: the class over any type of hashed points; a sequence of calls is a list. Induction over the calls with the invariant that each map numbers the values of its vector; counting lemmas for the inverse maps. The negative results are proved for all meshes |
| C105 | Topology of an unbounded mesh from rings of nodes | Model/Unbounded; invariant over sides and rings (table of faces, counters, mirror of faceCells); refuted where the generator lies on the line of a side |
| C106 | Crossings of a segment and a bounding box | Model/Unbounded; general counterexample: a horizontal segment through any box; what is reported is proved true |
| C107 | Arithmetic of quantized points | Model/PointArith; exact characterisation of definedness; round trips; negation (index lost) and division (rounds towards zero) refuted |
| C108 | Simplifying the polygons of adopted cells keeps the polygon | Model/Orphanage; induction over the facets for any test; the tolerance 1 that is passed makes the test true but for right angles: every polygon without an acute angle is erased; with an exact test the area is kept (shoelace sums along the turning points of a closed path) |
| C109 | Boundaries and cells converted for Boost.Geometry | Model/BoostConvert; induction over facets, holes and faces; facets out of order and polygons that are not empty refute the rest |
| C110 | Orphans are adopted by the cells beside them and nothing is lost | Model/Adopt with Boost.Geometry and the tessellator as parameters; induction over the orphans and the neighbors; false where the union has no acute angle (by C108) and where no point is shared |

## Disagreements between the code and the properties

Each of these is a theorem `Cnn_..._fails` (or a theorem stating the exact behaviour) in `lean/Verif/Props`.

| Property | What the code does instead | Where |
|---|---|---|
| C03 | Deserializing into a vector appends to it; the old contents stay. | `src/polytope_serialize.hh`, vector deserializers |
| C09 | `deleteCells` leaves `boundaryFaces`/`boundaryNodes` as they were, so they name deleted or renumbered entities. | `src/deleteCells.hh` |
| C10 | `MeshEditor::deleteCells` indexes the new, shorter cell table with the old cell id: out of bounds whenever a deleted cell comes before a kept one. | `src/MeshEditor.cc` L708-721 |
| C15 | `bisectSearch` on a descending table: its debug assertions are those of an ascending one; empty tables are read out of bounds. | `src/bisectSearch.hh` |
| C20 | `computeSortedFaceEdges` on an open chain closes the loop the wrong way round in half of the cases. | `src/polytope_internal.hh` L151-280 |
| C18 | `IntPointMap::have` in 3D intersects every coordinate with the first one only: it reports points that `index` would store as new. | `src/IntPointMap.hh` L147-166 |
| C19 | `hashPosition` shifts a 32-bit integer by 32 on every call (undefined); where it wraps, only 16 bits per coordinate survive, and the 3D version interleaves with stride 2, so keys collide. | `src/mortonOrderIndices.hh` L36-41, L63-67 |
| C52 | `PointComparator` with any non-zero fuzz is not a strict weak order: it has three-point cycles. | `src/Point.hh` L171-186 |
| C53 | Edge cleaning can leave two-sided cells and pinch the boundary, after which the next call fails an assertion. | `src/MeshEditor.cc` L96-579 |
| C22 | The `ReducedPLC` constructor copies holes with the ids of the original point list; they then name other points or none. | `src/ReducedPLC.hh` L33-57 |
| C23 | `makeBoxPLC` in 3D is an assertion that always fails; without assertions it does nothing. | `src/makeBoxPLC.hh` L34-39 |
| C26 | `triangleCircumcenter3d` refuses every triangle with a side below 1e-5: the collinearity tolerance is absolute. | `src/polytope_geometric_utilities.hh` L426-444 |
| C54 | A face whose first two nodes are closer than 1e-5 is taken for degenerate: assertion, or a read past the end of a two-element list. | `src/polytope_geometric_utilities.hh` L995-1037 |
| C29 | On segments shorter than 1e-10 `closestPointOnSegment2D` returns the midpoint whatever the query. | `src/polytope_geometric_utilities.hh` L502-521 |
| C30 | `segmentIntersection2D` with a positive tolerance reports segments that do not meet. | `src/polytope_geometric_utilities.hh` L1193-1226 |
| C55 | `intersect` compares a new crossing with `result.back() - 1` instead of the last point and joins the tests with `and`: a horizontal segment gets at most one crossing per facet list. | `src/intersect.hh` L48-56 |
| C56 | `collinear` of a cloud starts at index Dimension: in 3D it skips the third point and reads past the end of a two-point array. | `src/polytope_geometric_utilities.hh` L479-496 |
| C57 | `between` rejects the midpoint of a segment whose squared length is at most the tolerance. | `src/polytope_geometric_utilities.hh` L449-473 |
| C58 | `pointOnPolygon` also accepts points off the boundary, near every slanted side (absolute and angular tolerance 1e-10). | `src/polytope_geometric_utilities.hh` L550-568 |
| C59 | `within` takes the vertices stored from the first id of the first facet on as the polygon; the other facets are ignored, and a boundary listed from another vertex is read past the end of the array. | `src/within.hh` L29-47 |
| C60 | computeNormal has a wrong first component (ab.z*ac.z for ab.z*ac.y), so convexWithin and convexIntersect give wrong answers for solids with slanted facets and never find anything within a solid with certain facets across x. | src/polytope_geometric_utilities.hh L1579; src/convexIntersect.hh L95 |
| C60 | The edge-edge directions of convexIntersect are tested on a plane through a vertex of the first solid (not an edge cross product), so they never separate; solids apart only across two edges are reported as intersecting. | src/convexIntersect.hh L252-276 |
| C33 | The comparator of the set of hashed points is not a strict weak order (it can order three points in a circle), so the container's behaviour is undefined for points in neighbouring cells. | src/convexHull_2d.hh L27-41, L136-141 |
| C33 | The grid spacing is used as the (dimensionless) tolerance of the collinearity test; for a spacing above 1 every point set is flattened to one facet. | src/convexHull_2d.hh L127 |
| C34 | rayPlaneIntersection decides whether a parallel ray lies in the plane with the origin of the ray instead of the plane normal: rays from the coordinate origin hit every parallel plane, rays in a plane are reported as missing it | src/polytope_geometric_utilities.hh L708 |
| C34 | rayCircleIntersection reports a hit at the ray's own origin for every ray that starts outside; rayBoxIntersection never checks that a plane hit is on the box, and for axis-parallel rays from the coordinate origin reports the origin itself | src/polytope_geometric_utilities.hh L800-803, L847-922 |
| C36 | The 3D quantized tessellation takes its length from x and y only, so that a box that is tall in z is converted with undefined behaviour; with assertions compiled in it always aborts; a boundary of zero extent divides by zero | src/QuantizedTessellation3d.cc L41-53 |
| C39 | fillTessellation appends to the face cells of a mesh that is not empty: filling the same mesh twice gives every face all its cells twice | src/QuantizedTessellation2d.cc L99-131 |
| C38 | removeCollinearPoints computes (i-1)%n with int i = 0, which is -1: it reads before the begin of the polygon every time it is called, so every clip that leaves orphans which are merged or adopted has undefined behaviour. It also never considers the last vertex. | src/clipQuantizedTessellation2d.cc L26-46 |
| C38 | tessellateQuantized dereferences a null vertex for a half edge without ends, inside the check meant to report it; without assertions also for a half edge with one end. | src/BoostTessellator.cc L119-131 |
| C37 | KeyTraits::Key is int: the 2D Hasher keeps only the last bit of the row, the flag of the outer box is lost, unhashing returns a position in the first row, and the 3D Hasher shifts an int by 42. | src/polytope_geometric_utilities.hh L55-279, src/KeyTraits.hh L16 |
| C21 | uniquePoints merges distinct points of the same column whose rows differ by an even number. | src/polytope_geometric_utilities.hh L1350-1389 |
| C41 | The search for a boundary node stops at a node exactly at the tolerance, which is then rejected: closer nodes after it are not looked at. The 3D version only asserts false. | src/snapToBoundary.cc L51-57, L133-139 |
| C42 | Splitting a segment reverses the piece that contains its second end point: the vertex lists are `[vi, v]` and `[vj, v]` (`C42_reversed_fails`). | src/PLC_CSG_2d.hh L205-221 |
| C63 | Because of the reversal, BSP trees of polygons that are not convex classify points wrongly; the union of an L shape and a far square loses the square (`C63_reversed_fails`). | src/PLC_CSG_2d.hh L205-221 |
| C63 | Holes of the operands are ignored (`C63_holes_fails`). | src/PLC_CSG_2d.hh L379-394 |
| C64 | Results are not consistently oriented and are misread by the next operation (`C64_orientation_fails`, `C64_chain_fails`). | src/PLC_CSG_2d.hh L205-221 |
| C64 | The intersection of polygons that are apart aborts on `nfacets >= 3` (`C64_disjoint_fails`). | src/PLC_CSG_2d.hh L405 |
| C46 | A process that passes no generators aborts in debug builds as soon as any other process has one: the final deletion of foreign cells insists that a cell is kept. Release builds return an empty mesh. | deleteCells.hh L33, SerialDistributedTessellator.cc L201-205 |
| C48 | A process without neighbours evaluates `sendRequests.front()` of an empty vector in both exchanges, which is undefined. | DistributedTessellator.cc L305, L733 |
| C49 | With the default `buildCommunicationInfo = false` and at least one neighbour, the loop that removes neighbours indexes the empty `sharedNodes`. | DistributedTessellator.hh L35, DistributedTessellator.cc L550-553 |
| C66 | In three dimensions `faceCentroid` reads `mesh.faces[iface][*itr]` where `*itr` is already a node number, past the end of the face for most faces (`C66_key3_fails`). | src/DimensionTraits.hh L118-128 |
| C66 | Shared nodes are ordered by quantised position only; two nodes with the same quantised position are ordered by local numbering, which differs between processes (`C66_ties_fails`). | src/DistributedTessellator.cc L456-508 |
| C50 | When two neighbours list different numbers of nodes, the report reads `sharedIDs[k]` with the sender's loop index `k` instead of `kk`, past the end of the table if the receiver has at most `k` neighbours (`C50_report_fails`). | checkDistributedTessellation.hh L111 |
| C67 | No boolean operation on solids ever returns: `ReducedPLCfromPolygons` hashes the first vertex with `Hasher<3>`, which shifts an `int` by 42 (`C67_returns_fails`, `C67_undefined_fails`). | src/PLC_CSG_3d.hh L467; src/polytope_internal.hh hash |
| C69 | The walk around a cell starts at its lowest-numbered node and goes to the lower-numbered neighbour, whichever way round that is. So cells are not all counterclockwise, and two neighbouring cells may both have their common face with a positive sign. | TriangleTessellator.cc L163-257, L482-499 |
| C69 | Triangles with the same circumcentre get a node each, at the same place, and a face of length zero between them. | TriangleTessellator.cc L382-418 |
| C70 | tessellate of generators that are all at the same place, for instance of one generator, divides by the box size zero and converts the result to an integer. PLC and box versions do not have this problem, as the box is that of the boundary. | QuantizedTessellation2d.cc L75-82, TessellatorInline.hh L11-33 |
| C70 | Two generators that round to the same grid point: Triangle leaves one out; a debug build stops at the assertion that it has three triangles, a release build gives it an empty cell. | TriangleTessellator.cc L421-432 |
| C72 | tessellateDegenerate merges generators that are far apart: points with the same x and row numbers that differ by an even number get the same hash, so of three generators on a vertical line the middle one can vanish and be mapped to the cell of the lowest. | src/polytope_geometric_utilities.hh L55-279, src/TessellatorInline.hh L101-120 |
| C73 | A boundary that divides a cell makes tessellate read before the begin of a polygon (removeCollinearPoints), so no PLC with a cell cut in two works. | src/clipQuantizedTessellation2d.cc L26-46, L163-199, L319 |
| C73 | The outer boundary handed to Boost.Polygon connects the first points of the facets in the order in which they are listed; PLC.hh does not ask for loop order. A square with its sides listed bottom, top, right, left becomes a bow tie. | src/clipQuantizedTessellation2d.cc L86-96 |
| C74 | A face whose second cell is ~0 comes back from the C interface as a boundary face, a hull is neither read back nor reset, and shared-node lists are assumed to match the neighbours. | `polytope_tessellator.cc` L73-92, L97-125, L166-175 |
| C75 | polytope_tessellation_new leaves face_cells unset, and clear does not reset boundary_nodes, boundary_faces and face_cells: freeing a new object, freeing after clear and clearing twice are undefined. Tessellating into a full object leaks all its arrays. The printing functions read memory that nobody has written. | `polytope_tessellation.cc` L14-124, L128-149; `polytope_plc.cc` L191-210 |
| C77 | A process sends only its hull and the generators whose cells leave the hull. A generator whose local cell lies inside the hull is dropped, but its cell can still touch a cell of another process that lies outside the hull. The two processes then do not become neighbours, and both claim the same part of the plane (C77_hidden_fails). | src/DistributedTessellator.cc L890-930 |
| C78 | Processes that do not become neighbours although their cells touch (C77) each cut their own cells without the points of the other, and end up with cells that overlap (C78_hidden_fails). | src/DistributedTessellator.cc L890-930, L241-330 |
| C79 | The index map of uniquePoints, from points to unique points, is applied to the facets, which already hold numbers of unique points. If any point is given twice the facets name wrong points (C79_repeats_fails). Every call shifts a 32-bit hash by 42 bits (C79_undefined_fails). | src/convexHull_3d.hh L418-429; src/polytope_internal.hh Hasher<3> |
| C80 | Both entries of a face in conn are its first cell; the lengths of parts 2 and 3 of conn are exchanged; tag names are never assigned and written empty; edge fields are read with the number of faces; the 2D writer takes front() of an empty vector for a cell without faces. | src/SiloWriter_2d.cc L304-327; src/SiloWriter_3d.cc L339-364; src/SiloUtils.cc L40-41 |
| C81 | A process that opens an existing file of its group truncates it, so that only the last process of a group remains. The master file names nproc/numFiles meshes per file, too few when there is a remainder. The 3D writer does not put the master file into the given directory. | src/SiloUtils.cc PMPIO_openFile; src/SiloWriter_2d.cc, src/SiloWriter_3d.cc master file |
| C82 | 2D files have two coordinates per vertex, the OFF format has three. The facets of holes are written but not counted. | src/polytope_write_OOGL.hh L49-81, L126-154 |
| C83 | fill_tessellation does not copy the convex hull, so that it is never written from C. Two tags of one name leak the first vector. | polytope_c/polytope_tessellator.cc L134-199; polytope_c/polytope_write_silo.cc L85-109, L137-157 |
| C84 | On several processes cleanEdges sends the address of a size declared inside the loop, which is gone by MPI_Waitall; never clears the buffer between neighbours, so that the second neighbour gets the mask of the first; waits on an empty list of requests without neighbours; and drops the preference for boundary nodes. | src/MeshEditor.cc L266-505 |
| C85 | 2D simplifyPLCfacets loses the holes of the PLC, turns the polygon over if its first facet runs from a point to one listed before it, and compares squared lengths with the tolerance itself: a polygon whose sides are all shorter than the root of the tolerance makes a debug build abort and a release build run for ever. | C85_holes_fails, C85_orientation_fails, C85_short_sides_fails |
| C86 | Nothing in the library calls `exactinit`, so the error bounds of `orient2d` are zero and it returns the determinant evaluated in floating point: for every precision there are points for which its sign is wrong and points not on one line for which it is zero (and `computeCircumcenter` divides by zero). After `exactinit` the sign is right whenever it returns, but in its last stage, always reached for points on one line with inexact differences, `fast_expansion_sum_zeroelim` reads one element past the end of arrays of four. That read is the only fault: with any number in that place the sign is right for all points (`C86_orient2d_padded`). | `src/predicates.cc` L369-373, L1054-1100, L1531-1600 |
| C87 | Without `exactinit`, as in the library, `Split` takes the whole number for its upper half and `Two_Product` always gives the error zero. | `src/predicates.cc` L206-222 |
| C88 | Spheres and cylinders are hulls of points found by 32-bit hashes with a shift by 42 bits: undefined by the standard, and wrong whenever two of the points have the same hash (C88_cylinder_collision_fails, C88_sphere_collision_fails). A sphere with one ring fails an assertion (C88_one_ring_fails), one with the radius zero converts a NaN to unsigned (C88_zero_radius_fails). | src/polytope_plc_canned_geometries.hh L41-116; src/convexHull_3d.hh |
| C89 | The 3D simplifyPLCfacets drops the holes of the PLC (C89_holes_fails), orients a joined facet by its first three corners, so that it turns over when the second is reflex and the volume changes (C89_orientation_fails), joins three facets in a row or only two of them depending on the numbering of the points (C89_order_fails), aborts or is undefined when facets in one plane make a ring (C89_annulus_fails), makes a facet that comes by a point twice (C89_pinch_fails), and compares products of lengths with an absolute tolerance: closed surfaces whose facets have normals of a squared length below half the tolerance abort or are undefined, tinier ones vanish (C89_small_fails, C89_tiny_fails). | src/simplifyPLCfacets.hh L139-352 |
| C90 | `ReducedPLCfromPolygon` writes both ends of a hole's facet to element 0 and asserts `ii == nhfacets-1` where `ii == nhfacets`: every polygon with a hole aborts in a debug build and in a release build its hole's facets all end at point 0. An empty intersection or difference aborts in a debug build. | `src/PLC_Boost_2d.hh` L113-128, L194, L213 |
| C91 | When two pieces of the intersection share the point, only the last is returned and the other is dropped; when none of several contains it, `intersections[k]` is read with `k == size()`. | `src/PLC_Boost_2d.hh` L243-263 |
| C93 | `project` computes the squared length of an edge with `v2y-v2y`, so that even the middle of a slanted edge is moved; it and `distanceToEdge` read past the end at the last edge (`% m_vertices.size()` counts coordinates), so that `nearestEdge`, `nearestEdgePosition` and `project(point)` are undefined for every polygon; `distanceToEdge` is the distance to the middle of the edge. | src/Polygon.hh L125-201 |
| C94 | the setter of the degeneracy has no effect on initialize; points with equal x abort; in 3D all six facets are written to facet 0 and the sphere leaves out the corners of a cube; expand starts from a box at the origin, does not refresh the PLC, and with MPI takes the radius from the x extent; the overflow test comes after the overflow | QuantizedCoordinates.hh L147-153, L171, L384-389, L221-246, L447-457; C94_degeneracy_fails, C94_flat_fails, C94_boundary3_fails, C94_sphere_fails, C94_origin_fails, C94_stale_fails, C94_mpi_fails, C94_two_fails, C94_overflow_fails |
| C95 | `constructCells1d` reads past the end of its sorted vector for fewer than two generators; two equal generators give a zero ray direction (abort with assertions, else faces of length zero); generators outside the circle become nodes themselves and the cells are flat. | C95_few_fails, C95_repeated_fails, C95_outside_fails |
| C96 | After an error that is reported to a handler which returns, the tessellator continues: without triangles a release build returns a mesh of empty cells. A null handler set through the C interface is called. | src/TriangleTessellator.cc L123-131; polytope_c/polytope_c.cc L14, L22-27 |
| C97 | polytope_tessellator_name returns a pointer into a temporary string. The dimensions of mesh and PLC objects are not compared with that of the tessellator. | polytope_c/polytope_tessellator.cc L325-331, L284-312 |
| C98 | Nothing in the library calls `exactinit`, so the error bound of `orient3d` is zero and its first stage returns every determinant that is not zero: for every precision there are points of negative volume for which it returns a positive number. After `exactinit` the adaptive parts read memory that was never written or is past the end of an array: `incircle` and `insphere` return no number for any points on one circle or sphere, `orient3d` for some points with exact differences (eight components in an array of eight) and for some whose differences need rounding. | `src/predicates.cc` L374, L2298-2302, L1953, L2107, L2688, L3957 |
| C100 | copyCoords checks only (with assertions) that the total number of coordinates is a multiple of the dimension: tuples of the wrong length are merged silently into other points. writeTessellation takes front() of the vector of an empty list and never checks the length of a field, so that the Silo writer reads past its end. | src/PYB11/polytope_pybind11_helpers.hh L33-45, src/PYB11/polytope_PYB11.py L74-77, C100_coords_fails, C100_empty_fails, C100_short_fails |
| C99 | facesAsInts and zoneNodes convert unsigned node numbers to int: from 2^31 nodes on they are negative. | src/PYB11/Tessellation.py L115-141, C99_faces_fails |
| C101 | The PLC made for the search of neighbours has no holes: which processes exchange generators does not depend on the holes of the boundary (C101_holes_fails). This can only add neighbours if cells are cut by the holes. | src/DistributedTessellator.cc L959-977 |
| C102 | With the generator on two pieces of the clipped cell, the earlier piece is neither the cell nor an orphan. A cell that does not meet the domain is left whole. A ring that meets itself is split at the last occurrence of its first point, which is the first point itself unless the ring passes through it again: then the ring is not changed, so that the assertion at the end fails, or without assertions a ring that meets itself is returned. Of the two loops the other one is dropped. | `src/Clipper2d.hh` L72-89, L122-160, L179 |
| C103 | The driver runs through four functions that are not written: the constructor of the 3D quantized mesh ends in a failing assertion, and so do clipQuantizedTessellation, fillTessellation and snapToBoundary (makeBoxPLC too). With assertions every call aborts; without them every call leaves the mesh empty without an error. The assertion that the number of coordinates is even is also that of 2D. | `src/TessellatorInline.hh` L18-20, L64-83, `src/QuantizedTessellation3d.cc` L87, L106, `src/clipQuantizedTessellation3d.cc` L17 |
| C104 | `QuantTessellation::assertValid` counts a face among the faces of its cell between `begin()` and `begin()`, so that with assertions it ends the program on every mesh that has a face (`C104_assertValid_aborts_fails`); a face of one edge with a negative id is read out of bounds by `tessellation` (`C104_backwards_fails`); if the box of the generators is flat in x or y, every flat coordinate of a node is moved by its normalised coordinate (`C104_position_flat_fails`); `tessellation` also uses members that `Tessellation` does not have | QuantTessellation.hh L248, L265-266, L151-157, L342-344 |
| C105 | `constructUnboundedMeshTopology` decides the direction of a face by a strict test, so a generator on the line of a side has that side listed backwards; it writes to `mesh.infNodes` and `mesh.infFaces`, which `Tessellation` does not have, and nothing calls it. | `C105_on_line_fails` |
| C106 | `intersectBoundingBox` compares a new point with the last one by `result.back()-1`, a value less one, where the element before the last was meant, and asks for both coordinates to differ: a horizontal segment through a box is reported with one crossing. | `C106_through_fails` |
| C107 | Unary minus of a point sets its index to 0, where every other operator keeps it; dividing points rounds towards zero, so that the coarse cell at zero has nearly twice the size of the others. | `C107_negative_fails`, `C107_coarsen_fails` |
| C108 | `removeCollinearPointsFromPLC` is called with the tolerance 1, for which `collinear` of distinct integral points is true unless there is a right angle at the first of them: a rectangle, and every polygon without an acute angle, loses all its points. `simplifyPLC` erases a polygon of short facets, however large. Both drop the holes. | `C108_erased_fails`, `C108_rectangle_fails`, `C108_short_facets_fails`, `C108_holes_fails` |
| C109 | `constructBoostBoundary` takes the second node of every facet in the order of the list, so a boundary whose facets are not in sequence becomes another polygon, and its assertions hold; it appends to what the polygon holds. | `C109_order_fails`, `C109_reused_fails` |
| C110 | The cell that adopts an orphan is left without points whenever their union has no acute angle, as for two rectangles. An orphan that has no point in common with a cell, though it lies along its side, is dropped. | src/BoostOrphanage.cc L340-350, L564 |

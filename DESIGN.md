# Formal model of hmeine/geomap in Lean 4

## Scope and method

The C++ sources in /repo/src are modelled by hand as total, computable Lean functions (`lean/Verif/**/Model*.lean`).  Each definition
cites the file and lines it models and says where it simplifies.  Undefined behaviour, failed `vigra_precondition`s and non-terminating
loops are separate outcomes of the model (`Verif/Outcome.lean`: `ok`, `precond`, `ub`, `hang`), never silently totalised; so a theorem
that a call is `ok` includes termination and memory safety.  Specifications (`Spec.lean` in each directory, or the head of
`Props.lean`) are small definitions that do not use the helpers of the model: orbits, covered pixel sets, partitions, winding numbers,
recomputed areas.  Theorems that state properties are in files `*Props*.lean`, each followed by `example`s showing that a concrete
non-trivial case meets its hypotheses; helper lemmas are elsewhere.

Where the code violates a property, the negation is proved with a concrete witness (theorems ending in `_violated`), the part that does hold is proved
under a named restriction (`_partial` if the restriction is not part of the property), and the finding is listed below.

General simplifications:

* `double` arithmetic is exact: an arbitrary ordered field, with floor where needed (over the real numbers in C26).  Rounding is NOT modelled.
* `int`/`unsigned` are unbounded except where wrap-around is the point (C40, counters in Pyramid and FaceStats).
* Callbacks may look at the map and veto; callbacks that modify the map, throw or change connections are not modelled.
* `boost::shared_ptr`, `boost::signals` internals, allocation failure and vigra's containers are not modelled.  vigra's `Box` is not in the
  repository; it is taken to be a closed box with `|=` the least common box.

## What is modelled

| Directory in lean/Verif | Code in /repo/src | Left out |
|---|---|---|
| LabelLUT | geomap/labellut.hxx | |
| Iter | geomap/filteriterator.hxx (cell iterators of cppmap.hxx), LabelScanIterator and ImageFilterIterator of cellimage/foureightsegmentation.hxx and filteriterator | |
| Sigma | sigma arrays of geomap/cppmap.cxx: growth, insertion, removal, `setSigmaMapping` (940-963, 1255-1309, 1847-1938), `sigmaMapping` of the bindings | the rest of the operations (GeoMap) |
| GeoMap (Model, ModelInit) | geomap/cppmap.hxx 186-1403, cppmap.cxx 54-80, 147-206, 230-243, 355-478, 965-1197, 1216-1253, 1273-1309, 1664-1671, 1769-2162, 2223-2256 | geometric search for the face around a hole (parameter `pick`), label image in `embedFaces` (LabelImage), `checkConsistency` (Check) |
| Hooks | the same operations with the trace of callback calls | `associatePixelsHook` |
| Protection, Utils | geomap/cppmap_utils.hxx 39-142, cppmap_utils.cxx | `hitTest`-like Python helpers |
| Copy | copy constructors cppmap.cxx 245-296, cppmap.hxx 464-472, 574-585, 1124-1135 | signals, split info (not copied by the code either) |
| LabelImage | cppmap.cxx 976-1026, 1199-1253, 1673-1767 and the image part of 1769-2162 | |
| Check | cppmap.cxx 1322-1656 `checkConsistency` | messages, the test `map() != this`, comparison of cached length and area of edges (1508-1523; see EdgeCache) |
| EdgeCache | geomap/cppmap.hxx 530-585, polygon.hxx 284-304, 617-627 and 448-476 used by cppmap.cxx 371-382, 1825-1840, 1895-1902, 2166-2193 | cached scan lines of edges (LabelImage) |
| Pickle | python_bindings/cppmapmodule.cxx 456-496, 611-718 (`createGeoMap`, `GeoMapPickleSuite`) | image size, label image, attribute dictionary, old formats |
| Euler | specification: Euler formula, contours, holes | |
| Outer, Refuse | specifications: outer contours of faces; exact preconditions of the operations | |
| Locate | specification of the location of points and its preservation by all operations | |
| Query | cppmap.hxx 1148-1187, cppmap.cxx 309-353, boxes in `mergeFaces` | |
| FaceStats | geomap/facestatistics.hxx 46-592 | the values of the accumulator and of the spline (arbitrary) |
| NodeIndex | geomap/vigra/map2d.hxx 64-184, `nearestNode` | |
| SetPosition | `Node::setPosition`, cppmap.cxx 2166-2193 | |
| PointIter | `DartPointIter`, `ContourPointIter`, `contourPoly` | |
| DartPos | geomap/cppmap.hxx 1477-1667 `DartPosition` | rounding: double is modelled by the real numbers |
| Eventually | cppmap.cxx 480-692 `sortEdgesEventually`, cppmap.hxx 1669-1745 | rounding; `splitParallelEdges` is in Parallel |
| Polygon | geomap/polygon.hxx 234-740 | writing through iterators |
| Hull, Simplify | polygon.hxx 744-937 | |
| Resample | polygon.hxx 938-1574, 1635-1637 with 474-483: digital lines, least squares, linear, exponential and Gaussian resampling (weights and radius of the Gaussian are arbitrary), integrals for spline control points | rounding: double is modelled by the real numbers, so a weight never underflows to 0 |
| PyPoly | python_bindings/exporthelpers.hxx 45-64, python_bindings/polygon.cxx 167-199, 339-458, 1411-1535, 1636-1815: indices, tangents, curvature, parabola fit, edges in label images, intersectLine | double is modelled by the real numbers; `vigra::linearSolve` (the theorems hold for every solution of the system) |
| Scan | polygon.hxx 1705-2164 | |
| Crack | geomap/vigra/crackconnections.hxx 46-118, crackedgemap.hxx/.cxx | the rest of crackedgemap is in Midcrack |
| DSL | geomap/vigra/dsl.hxx | |
| Oversampling | geomap/vigra/oversampling.hxx | |
| CellImage | cellimage/cellimage.hxx pixel packing, dart serialisation | |
| FourEight | cellimage/foureightsegmentation.cxx 66-460 (constructor from a cell image, the four Euler operations), 655-890 (`initCellImage`, labels of nodes, edges, faces and closed edges), 891-1212 (`initNodeList`, `initEdgeList`, `initFaceList`), foureightsegmentation.hxx 90-345, 354-650 (EdgelIterator, DartTraverser, CellScanIterator, contour image), cellconfigurations.hxx | VIGRA's contour and component functions (arbitrary, or with the properties `Components.Sane`); debug checks |
| Parallel | cppmap.cxx 693-938 (`MergeDart`, `splitParallelEdges`) | the preference computed from dart directions (769-789) is a parameter; bounding boxes and cached lengths of edges, `nodeMap_` |
| Midcrack | crackedgemap.cxx 239-293, crackedgemap.hxx 206-262, cppmap.cxx 82-108 | caches of edges (length, area, box); label image and scanlines, which the code does not update |
| Pyramid | cellimage/cellpyramid.hxx | the segmentation itself (abstract deterministic partial operations) |

Not modelled at all: the Python layer (/repo/python) and the Boost.Python bindings apart from `sigmaMapping`, pickling and PyPoly; `subpixel_watershed.hxx`,
`watershed.cxx` and other numerical image processing (their results depend on floating point); `cellstatistics.*` apart from the statistics of faces and edges and the protection of edges and of the last changes, all without the rethinning of edges, which is on by default (C97-C102);
VIGRA's `labelImageWithBackground` (its labels are parameters of the pixel based map);
statistics of edges (spline values); SVG/FIG and image I/O; `polygon.hxx` from 1575 to 1704 apart from what is listed.

## Plan per property

- **C01 LabelLUT lookup returns the class representative** - Model LabelLUT (two arrays as functions + size, `relabel` loop with explicit visited chain). Refinement: representation invariant relating the arrays to an abstract partition (list of classes); induction over call sequences.
- **C02 LabelLUT merged-label iteration is exact and terminates** - Same invariant; `merged` modelled as iteration of prevMerged until fixpoint with fuel=size, proved sufficient.
- **C03 Cell iteration visits exactly the live cells** - Model FilterIterator ctor/++ over a list of optionals; theorem: trace = filter isSome in order. Induction on the list.
- **C04 Dart navigation forms a combinatorial map** - GeoMap state machine; sigma/sigmaInv as functions; invariant that they are inverse permutations of the live darts; orbit walks proved to return by finiteness.
- **C05 Sigma orbits are exactly the darts around a node** - Invariant over all operations: node orbit = darts starting there. degree loop proved to count the orbit.
- **C06 Face labels are constant along contours and contours are listed exactly once** - Invariant over all operations: phi-invariance of left face, anchors transversal of phi-orbits.
- **C07 Cell counts and label ranges** - Counts invariant = cardinality of live labels; per-operation deltas.
- **C08 Euler-Poincare formula** - Cycle counting for permutations multiplied by swaps, genus inequality, then preservation per operation. The value 1: remove all edges one by one and count dual components; signs of contour areas right after `initializeMap` bound the number of holes.
- **C09 A vetoed operation leaves the map unchanged** - Each operation returns (result,state); theorem: veto => state observably equal. mergeEdges moves contour anchors before the hook: stated up to anchors (+ witness that anchors move).
- **C10 Hook protocol** - Model the accumulator over a list of hooks with call trace.
- **C11 mergeEdges undoes splitEdge** - Compose the two modelled operations and compare the states.
- **C12 Locality of Euler operations** - Frame theorems per operation.
- **C13 Face areas are additive** - Areas over an ordered field, edge area from the modelled polygon; invariant cached=recomputed; sum over faces via sum over darts.
- **C14 The first contour of a finite face is its outer contour** - Violated: witness (disc in ring) by evaluation of the model. Proved for the histories in which mergings of faces meet `KeepsOuter` (Outer/Spec.lean), and this condition is shown to be exact.
- **C15 Label image invariant** - Label image functions modelled pixel-wise on clipped scanlines; invariant image(p) = -(cover count) or face label; induction over operations.
- **C16 pixelArea equals the number of the face's pixels** - Same state machine plus pixelArea counters.
- **C17 Merged face labels resolve to the survivor** - LabelLUT refinement + image accessor.
- **C18 changeFaceLabels is a consistent renaming or rejects** - Model changeFaceLabels loop with failure state; success theorem and witness of non-atomic failure.
- **C19 Copies are equal and independent** - Heap model: cells, maps and label images are objects with addresses, cells and darts point back to their map. The copy constructor allocates; equality is read through the pointers, independence is proved for arbitrary sequences of writes made through either map.
- **C20 EdgeProtection keeps protected edges** - State machine with EdgeProtection as hook; invariant over operation sequences.
- **C21 Bulk clean-up functions reach their fixpoint** - Model the loops over cell vectors; postcondition by induction.
- **C22 removeBridges / removeEdges terminate and remove the requested edges** - Model removeBridges list algorithm; UB outcome for front() on empty list; witness for duplicates; termination.
- **C23 mergeFacesCompletely removes every common edge** - Model over contour dart list.
- **C24 Sigma storage is memory safe** - Array-level model with bounds-checked accesses and UB outcome.
- **C25 Graph construction** - Construction operations of the GeoMap state machine.
- **C26 Edges are sorted by angle** - angleTheta over ordered fields vs cross-product order; sort modelled by merge sort on (angle,label).
- **C27 initializeMap assigns every dart to exactly one face** - initContours/embedFaces with geometric tests as arbitrary oracle.
- **C28 nearestNode returns a nearest node within range** - Map2D as x-sorted list, bidirectional scan with early exit; removal history witness for coincident nodes.
- **C29 Cached polygon length and area equal recomputation** - Polygon with caches as state machine; invariant fails for push_back/extend area: witness + partial.
- **C30 Polygon area algebra** - Algebra over a field.
- **C31 Bounding boxes contain and are tight** - BBoxPolygon state machine; setPoint witness + partial.
- **C32 Point-in-polygon parity** - contains loop over an ordered field; reversal/rotation invariance, bounding box.
- **C33 simplifyPolygon keeps end points and the tolerance** - Douglas-Peucker recursion on lists; subsequence and tolerance by strong induction.
- **C34 convexHull result is convex and covers the input** - Graham scan on lists; vertices are input points, consecutive triples turn right way; covering if reached.
- **C35 Scanline normalisation and filling** - Scanline lists; normalise as sort+fold; covered set preserved.
- **C36 crackConnectionImage marks exactly the label changes** - Pixel functions; bit-level spec.
- **C37 A crack edge map contains each crack exactly once** - `CrackEdgeMapGenerator` with the modelled `GeoMap` as result; walk model on a crack set, termination measure = remaining cracks.
- **C38 CellPyramid levels replay the history** - CellPyramid as generic state machine over an arbitrary deterministic partial operation; invariant on checkpoints.
- **C39 CellPyramid stays consistent on failures and composites** - Exception path and composite path as modelled; witnesses of the violations + partial theorems.
- **C40 Cell pixel and dart serialisation round trips** - Nat/bit arithmetic with 32-bit wrap.
- **C41 Scan iteration over a cell visits exactly its pixels** - Raster iteration; trace = filter over raster order.
- **C42 Digital straight line transforms** - Integer arithmetic.
- **C43 Face statistics equal recomputation after merges** - The accumulator is the multiset of its samples; invariant: samples of a face = image values of the pixels the label image reports for it.
- **C44 Supersampling bookkeeping is consistent and safe** - Counter/table state machine with UB outcome; witness + partial.
- **C45 Contour point iteration** - Iterator state machine; trace theorem.
- **C46 Edge concatenation** - List algebra.
- **C47 Node moves keep edges attached** - Model setPosition loop over the sigma orbit.
- **C48 Oversampling convolution stays in bounds** - Index arithmetic; all reads in range.
- **C49 No call misbehaves** - Corollary of the invariants: every modelled call on a reachable map ends with `ok` or `precond`, never `ub` or `hang`.
- **C50 Contour sorting is well defined** - The comparison functor with its 1e-2 window is shown to be a strict weak order; the order it sorts by is stated with absolute areas.
- **C51 sigmaMapping round trip** - The Python-visible array of the sigma mapping is read and written back; array-level model of C24.
- **C52 removeEdges is memory safe for every label list** - UB outcome for `front()` of an empty list; witnesses + partial.
- **C53/C54/C55 scan conversion, filling, scanline iteration** - `ScanlinesBuilder`, `fillScannedPoly`, `drawScannedPoly`, `ScanlinesIter` on exact coordinates with floor; specification by closed pixel squares and winding numbers of pixel centres; the crossing-number lemma is proved by induction over the polygon.
- **C56 Source labels of crack edge map faces** - Each face of the crack edge map is related to the connected region of equal labels it encloses.
- **C57 Faces partition the plane** - Points are located by winding numbers of contours (specification independent of the code); every operation is shown to move the location of every point the way the operation says.
- **C58 Point queries** - `faceAt`, `contains`, bounding boxes against the location of C57.
- **C59 checkConsistency** - All loops of the check on the array storage of C24 and the map of C04; each loop is evaluated on a reachable map, what remains of the tests is the specification `Passes`.
- **C60 Cached geometry of edges** - The polygon objects of C29/C31 beside the map of C04; invariant: the caches of every edge belong to its points.
- **C61 Pickling** - `getinitargs`, `getstate`, `createGeoMap`, `setstate` on the map of C04 and the storage of C24. The rebuilt graph is shown to be the old one (labels included), `initializeMap` is shown to find the groups of contours of the old faces if these are regions with holes (`Regions`) and the geometric search is right (`Finds`), and the renaming restores the labels. Both hypotheses are needed: witnesses for a map without edges and for a thin face.
- **C62 One outer contour per finite face** - The colouring of faces of the planarity condition gives the winding numbers of every single contour; the sign of the area follows from the sign of the winding numbers (area as the integral of the winding number, by induction over the scan lines).
- **C63 Exact preconditions** - `Refused` lists them per operation; equivalence with the outcome of the call on every reachable map.
- **C64 Positions on darts** - `DartPosition` over the iterators of C45 with real coordinates; invariant `Track`: the position is the point of the polyline at the reported arc length. Going back, a failed or outside-in circle search break it: `_violated` witnesses, exact condition in `Op.forward`.
- **C65 Sorting by growing circles** - `sortEdgesEventually` with positions of C64, the sort as any permutation ordered by angle, recursion with fuel. Safety and permutation by induction on the fuel, order from the angles at the first circle on which two darts are far enough apart; termination from the arc length gained per level.
- **C66 Linear resampling** - the search loop as an invariant on the arc lengths of the two neighbouring polygon points; the result is compared with `along`, the point at an arc length.
- **C67 Least squares resampling** - all array accesses as outcomes, loop invariants for the current interval, the elimination (pivots between 1/2 and 2/3) and the cyclic recursion; the straight line as counterexample by evaluation.
- **C68 Exponential filter** - both passes as lists of weighted sums; a half-plane is an invariant of the sums; counterexample for open polygons for every scale.
- **C69 Digital lines** - the loop as a state machine on the supporting points; number of lines by induction; counterexamples by evaluation.
- **C70 Python indices** - `checkPythonIndex` and the wrappers around the Polygon model; case analysis; counterexamples for all polygons.
- **C71 Cutting a polygon** - the loop with its stale `prevDist`; invariant relating finished parts to maximal runs; the leaving point is characterised exactly (on the line only if the run starts at the start of the polygon and its last point is on the line).
- **C72 Label images** - the loops on a pixel function; number of hits per pixel; invariant over all histories of marking and removing.
- **C73 Tangents and curvature** - the loops with 32 bit indices; arc length by induction; the triangle formula is shown to be the turning angle.
- **C74 Composed tangents** - the accumulated offset is a number of full turns and the last angle is remembered; induction over the lists.
- **C75 Parabola fit** - the sums belong to the data; completing the square for the minimum; the system is regular by three roots of a quadratic polynomial.
- **C76 Cell configurations** - the whole table; every statement about a neighbourhood is decided for all 256 entries by the kernel, connectivity in the specification is reflexive transitive closure; the scan over the image by induction.
- **C77 Pixel operations** - the four Euler operations on images as functions; the scan iterator visits the bounds, which contain the cell; effects read off the result.
- **C78 Pixel consistency** - invariant (owner, smallest rectangle, size, counts) over all histories; the infinite face is never merged away because its bounds are larger than all others.
- **C79 Pixel construction** - loop invariants of the three list initialisers with arbitrary results of VIGRA's functions.
- **C80 Parallel edges** - loop invariants: a table of the splits carried out (`Tab`), a ring of darts around the surviving node while a group is merged (`Ring`), all groups by induction (`Merging`); for every nested plan.
- **C81 Sorting, then splitting** - induction over the recursion of `sortEdgesInternal`: a call appends one group of consecutive darts if it plans (`PlanGroup`, `Adds`), positions advance along each dart from call to call (`Nest`, `AddsN`); composition with C80. Example with a real plan: `Parallel/Fork.lean`.
- **C82 Midcracks** - invariant over the loop (`Midcracked` for the edges done so far, `SameTopology`), shape lemmas on the list of midpoints (`Shape.lean`), triangle inequality for the length.
- **C83 Level contours** - pointwise specification of a move (`Interpolates`), induction over the edges; witnesses from whole runs that start with a label image for the parts that fail.
- **C84 Border flags** - loop invariant (`withFlag`) around the contour; composition with C37 (`crackEdgeMap_one_border`) for label images.
- **C85 Contour length** - the walk is a sum over the orbit (`Rep.sum_range`).
- **C86 Around a node of pixels** - the walk along the rim of a node (`walk`) is a bijection of rim positions (`walk_inv`), the number of positions bounds it; the code (`sigma`) agrees with it where no
  corner is filled (`sigma_walk`).
- **C87 Along an edge of pixels** - a table over the 256 neighbourhoods of an edge pixel (`table_exit`) gives one way out for every way in, and back; induction over the trace, which cannot repeat.
- **C88 Faces beside darts** - tables for the pixels beside an edge pixel (`table_sides`, `table_free`), carried along the trace and around the rim.
- **C89 Gaussian filter** - the summation loops end at the first sample beyond the radius (`gaussLoop_ends`), which exists because the polygon is longer than the radius; at the end points both loops
  meet mirrored samples (`gaussLoop_mirror`), so that the mean is the end point; weights are positive, so that means stay in half planes.
- **C90 Integrals for splines** - fundamental theorem of calculus for the polynomial pieces (`poly_integral`), substitution for segments left and right of the centre, additivity over segments
  (`spline3Convolve_integral`); an invariant of the loop that inserts positions (`Core`, `Idx`) shows that the arrays still describe the same curve (`Follows`).
- **C91 Labels of cells** - an edge is a class of the relation `SameEdge` (pixels of edges side by side, or diagonally with faces between). `labelEdge` visits exactly one class (`trace_edge`, with the
  table lemma `table_two`: an edge pixel has no third way out). Invariants of the scans: `Prog`/`Scanned` for `labelEdges`, `Ready`/`Grown` for `labelSelfLoops` (`loop_step` turns one pixel into a node). `labelCells_returns`: `carefulNextSigma` ends at the first dart or
  at the start pixel because the rim walk returns (`careful_total`), turning around a node ends (`sigmas_return`).
- **C92 Constructed map** - the whole constructor (`initMap`): the labelled image still has `OneRim` (`oneRim_grown`), so the anchor of a node reaches all its darts (`initNodeList_anchors`), `initEdgeList`
  makes an entry for every edge (`lists_lines`), whose ends are the ones found by following the pixels (`Entries`); then C79 gives the exact bounds and C78 the histories. `EndsFit`, the hypothesis of C78
  for `mergeFaces`, holds for every dart of a new map. That it returns at all (`initMap_returns_partial`): a node without holes has one contour, so every crack of it is passed when
  turning around it (`cracks_walk`); hence the scan in `initFaceList` finds an anchor for every contour it has not seen (`first_total`, `innerContour_total`). Degrees: `countDegree` stops at the first return to the anchor, so it counts an orbit of `nextSigma`, which has all darts (`count_darts`).
- **C93 Histories of the constructed map** - invariant `Whole` (image properties, stored ends are the two darts of the edge, their sides fit, every face beside the edge is one of its sides, degrees) over all
  histories. Removal of an edge (`Whole.removeEdge`), of an isolated node (`Whole.removeNode`) and the union of two edges at a node (`Whole.join`) are described by one relation between images (`Change`); that
  a node of two darts separates exactly two faces comes from the contour around the node (C92). The constructor establishes `Whole` (`initMap_whole`).
- **C94 Serialized darts** - `serialize`/`deserialize` on numbers; round trip by arithmetic, loss beyond 14 bits for every dart.
- **C95 Histories of the pyramid** - `PyrStep` performs recorded operations. Every one is a history of C93; for the ends of a removed edge the anchors matter, so a second invariant is carried along
  (`Anchors`: the anchor of a node with darts is one of them, degrees do not overflow). `decDegree` moves the anchor along the contour of the node (C92) before the last dart is gone, so that the anchor of
  a node without darts is at the end of its last edge and sees a face (`atIsolated_of`), as `removeIsolatedNode` needs.
  What each recorded operation takes from the numbers of nodes, edges and faces: `recorded_effect_partial` (`PyrEffect.lean`).
- **C96 Levels of a pyramid over the pixel based map** - instance `pixelSys` of the pyramid of C38. Every operation in the log was called with a dart of the map it is replayed on (`AllCalled`, by induction
  over sessions, because replays are deterministic), so that every level is a history of C95.
- **C97 Statistics of faces** - `Verif/FourEight/StatModel.lean`: the functor, the cropped scan of a cell, the constructor and the notifications around each operation. The scan visits every pixel of the
  cell in the base image once (`cellScan_spec`, from C41 and the exact bounds of C93); by induction over histories the entry of a face is the total over its pixels without those never seen.
- **C98 Protection of merged edges** - `Verif/FourEight/MergedModel.lean`: `mergedEdges_`, its update after two edges are merged, setting and looking up flags. By induction over histories the links from an
  existing edge form a chain without repetition through exactly the edges of the first map that lie in it, and chains of different edges are disjoint (`Linked`); a merge appends one chain to the other.
- **C99 Statistics of edges** - `Verif/FourEight/EdgeStatModel.lean`: the part of the constructor about edges, `preMergeEdges`, `postMergeEdges`. Invariant over histories: each dart's edge has the statistics of
  its pixels, or the infinite face beside it and the marker. Removals never move the infinite face away from an edge; merged edges have the same faces beside them, and the pixels of both and of the node are disjoint.
- **C100 Last changes** - `Verif/FourEight/ChangesModel.lean`: `lastChanges_` after each operation, `clearLastChanges`. Every pixel an operation changes becomes a part of the cell it returns (`changed_left`),
  whose bounds are exact by the invariant of histories; unions of rectangles only grow.
- **C101 Automatic protection** - `Verif/FourEight/AutoModel.lean`: the loop of `initAutoProtection`. Induction over the edges with C98: each part belongs to one edge only, so that later edges do not change the flags
  set before; the scan of an edge visits exactly its pixels in the base image.
- **C102 Automatic protection after merges** - `Verif/FourEight/AutoModel.lean`: the end of `postMergeEdges`. Invariant over histories: the flags of all parts of each edge in `segDataBounds` fit its pixels; a merge changes
  the pixels and flags of one edge only (C98), and the exact bounds tell whether it lies in `segDataBounds`.


## Findings (behaviour of the code that contradicts a property a user may rely on)

"Proved" names the theorem with the witness; the others follow from reading and are not claimed as theorems.

1. `setSigmaMapping` does not check its entries and writes out of bounds (`Sigma.setMapping_unchecked_violated`).
2. `mergeFaces` can make the boundary of a hole the first contour of the surviving face (`first_contour_is_outer_violated`, C14); `boundingBox`,
   `contains`, `faceAt` and `rescanFace` rely on the first contour (`Query.faceAt_violated`, C58).
3. `Polygon::push_back` and `extend` update a cached area with the new triangle twice, `clear` keeps caches (C29 `_violated`).
4. `BBoxPolygon::setPoint` does not grow the cached box (`bbox_violated`, C31).
5. `Node::setPosition` does not invalidate the areas of the faces around the node (`setPosition_area_violated`, C47),
   nor length, area and box cached in its edges (`setPosition_geometry_violated`, C60).
6. `splitEdge` at a point off the edge leaves a wrong `pixelArea` (`splitEdge_off_violated`), and stale cached scanlines.
7. `setHasLabelImage(false)`, then `true`, doubles `pixelArea` of face 0 (`pixelArea_reswitch_violated`); painting in label order hides nested
   faces with smaller labels (C15).
8. `mergeEdges` moves contour anchors before asking the callbacks (visible only through the choice of contour anchors, C09).
9. `changeFaceLabels` is not atomic when it refuses (`changeFaceLabels_atomic_violated`), may take label 0 from the infinite face
   (`changeFaceLabels_zero_violated`), and is not propagated to statistics (`statistics_rename_violated`); a copy made after a refused call lacks a face (`copy_clash_violated`).
10. `removeEdges`/`removeBridges`: duplicates or the flag 0x80000 lead to `front()` of an empty list (`removeEdges_duplicates_violated`,
    `removeEdges_flag_violated`); REMOVE_BRIDGE stays set on protected bridges (C20).
11. `removeEdge` on an uninitialized map asks no callbacks (C20).
12. `FaceColorStatistics`: after the last mark is released the table pointer is dereferenced (`supersampled_crash`, C44); `associatePixels` does not
    release the table; the copy constructor copies raw functor pointers (reading only).
13. Removing a node erases the first node at that position from the index (`NodeIndex.coincident_violated`, C28).
14. `ScanlinesIter` reads out of bounds for scanlines without segments (`iter_empty_violated`, C55).
15. `CellPyramid` keeps failed operations in its history, and `changeIntoComposite` corrupts the level count (C39 `_violated`).
16. `convexHull` drops extremal points if three points share a ray, and its comparison is no strict weak order for duplicates of the extremal point (C34).
17. `simplifyPolygon` fails for fewer than two points (`simplify_short_violated`, C33).
18. `crackConnectionImage` of an empty image reads out of bounds (`crackConnectionImage_empty`, C36).
19. `ContourPointIter` ends early at an edge with a single point (`contour_points_violated`, C45).
20. `tangentDSL`: an inverted assertion and an endless loop on a closed two-code chain (C42).
21. `ImageFilterIterator` on an empty rectangle reads outside (C41); `finiteFacesBegin()` without faces increments the end iterator (C03).
22. `splitEdge` at the first point of an edge leaves an edge with a single point, which `checkConsistency` reports (`check_after_splitEdge_violated`, C59);
    `mergeFaces` can make `checkConsistency` fail (`check_after_mergeFaces_violated`).
23. Pickling: an initialised map without edges cannot be pickled (first contour of the infinite face, `Pickle.pickle_empty_violated`, C61). A face whose
    outer contour and hole differ by less than 0.01 in area loses the hole (`thin_face_violated`): `AbsAreaCompare` sorts negative contours first, so
    the hole is embedded into the infinite face. The same happens in every `initializeMap`.
24. `DartPosition` (C64): `gotoArcLength` and `gotoPrevSegment` never return to the first segment, `gotoPrevSegment` only goes to the beginning of the
    current segment, `arcLength()` is stale after a failed `intersectCircle`, and `intersectCircle` leaves the dart when it starts outside of the circle.
25. `sortEdgesEventually` (C65) recurses forever if the darts of a node lie all around it closer than the minimal angle
    (`sortEdgesEventually_endless_violated`, `_star_violated`), reads beyond an edge with a single point (`_single_point_violated`), and treats two edges on both
    sides of the negative x axis as different directions however close they are, because the rotation search stops before the first gap (`_seam_violated`).
26. Resampling (C66-C69): `resamplePolygonLinearInterpolation` and `resamplePolygonExponentialFilter` return polygons of two points unchanged; `resamplePolygon` reads
    `poly[1]` of a polygon with one point and does not reproduce straight lines (its boundary term subtracts `integrals[1]` where the reflected
    integral `integrals[0]` would be needed); the exponential filter moves the end points of open polygons; `simplifyPolygonDigitalLine` divides by zero when consecutive lines are parallel.
27. Python module (C70-C73): `insert` and `__delitem__` check the index against `size() + 1`: `del p[-1]` and `del p[len(p)]` erase `end()`, other negative indices
    are off by one; `intersectLine` updates `prevDist` only for points outside, so the point where a polygon leaves the half-plane is wrong or a division by zero; `curvatureList` does
    not refuse `dx = 0`, which reads beyond the polygon. By reading: the second overload of `appendTangentList` extracts a number from a tuple.
28. Pixel based map (C78): `removeIsolatedNode` tests only the pixel its dart points to, so a dart of a removed edge is accepted for a node with other
    edges; the size of the infinite face starts at UINT_MAX and wraps around.  By reading: `mergeFaces` of a singular dart looks up an edge by the label of a face before it refuses.
29. Plans of `sortEdgesEventually` that `splitParallelEdges` cannot carry out (the hypotheses of `sort_then_split` in C81), by reading: a dart whose end has been reached and that takes part
   in two nested planning calls gets two splits with the same arc length, which lies behind the end of the edge (`arcLength` adds the stale partial length), and `std::sort` may
   order them either way; splits planned from both ends of an edge may cross, then an exception leaves the map half way.
30. `splitParallelEdges` (C80), by reading: a dart is detached after the end of its edge was moved to the surviving node, so the anchor of the merged node stays stale (harmless, since the
    node is removed, unless a callback vetoes that); splits of one edge planned from both ends that cross, or that coincide, make it throw half way; `MergeDart::operator<` is no strict weak order
    if an entry was never assigned; writing points through the non-const `operator[]` does not invalidate length and box of the edge.
31. `midcracksToThreshold` detaches edges from their nodes (`midcracksToThreshold_loop_violated`, `midcracksToThreshold_end_violated`, C83): it moves all points of an edge, including its ends, but no
    node; an end at a junction is no midcrack point but is moved horizontally as if it were one (except at the upper and left border, where the integer part is negative); at a junction whose two upper
    pixels are equal it divides by zero (`midcracksToThreshold_zero_violated`). It writes through `operator[]`, so cached lengths, areas and boxes of the edges are stale. Both functions leave the label
    image as it is.
32. With `cornerType` `CellTypeLine`, `nextSigma` misses a dart (`sigma_inverse_violated`, C86): contour pixels (2,1), (2,2), (1,2) with nodes at both ends of a corner; from the dart at (1,2)
    `nextSigma` returns to where it started, `prevSigma` leads to the dart at (2,1). `tryNext` skips a diagonal step between two pixels of a node if the corner pixel is an edge.
33. `resamplePolygonGaussianFilter` divides 0 by 0 if no vertex is within the radius of a new position (`gaussianFilter_sparse_violated`, C89): (0,0), (10,0), (20,0) with radius 3 and distance 5.
34. `resamplePolygonGaussianFilter` does not end for some closed polygons longer than the filter (`gaussianFilter_hang_violated`, C89): (0,0), (2,0), (0,0) with radius 3.5 and distance 1. The loop to the
    right adds the total length only once, so that positions stop growing after the second round.
35. `polygonSplineControlPoints` does not insert positions into the last segment of the polygon: its loop stops one segment early, so that `splineIndices` stays 0 for positions inside of a last segment
    longer than one part, and the integrals around them are taken from the start of the polygon (`augment_violated`, C90).
36. `polygonSplineControlPoints` does not check `segmentCount`: for 1 and 2 it reads `splineIndices[3]` out of range (`augment_short_violated`, C90).
37. `labelEdges` (pixel based map) turns around the outer rim of a node only. If a node has a hole and an edge in this hole, `labelSelfLoops` takes this edge for a closed contour and makes its first
    pixel a node of its own, beside the old node (`labelCells_violated`, C91).
38. Pixel based map (C93): the anchor stored for a node that is isolated from the start may see the node on its left (three pixels around a corner). `leftFaceLabel` then returns the label of the node,
    and `removeIsolatedNode(anchor)` takes it for the label of a face (`isolated_anchor_violated`; `leftFaceLabel` carries a FIXME).
39. Serialized darts (C94) keep 14 bits of each coordinate. In images of more than 16384 columns or rows (frame included) operations of the pyramid are performed on another dart
    (`serialize_violated`, `serialize_collision_violated`); nothing checks the size.
40. The statistics of faces (C97) lose pixels: `preRemoveIsolatedNode` does nothing, so that the pixels of a removed isolated node belong to the face, but are not in its count, sum and sum of squares
    (`faceStats_violated`). The constructor skips the infinite face, so that its pixels in the base image are missing as well, also in a face it is merged with.
41. `EdgeProtection::protectEdge` (C98) toggles all bits of its flag argument when any of them has the wrong value: taking `EPBorder | EPCanny` from an edge protected with `EPBorder` gives it `EPCanny`, and
    giving both to it does nothing (`protectEdge_violated`). Calls in the repository use one bit at a time.
42. The marker for edges beside the infinite face (C99) is set by the constructor and when edges are merged, but not when a finite face is merged with the infinite face: its other edges keep the mean gradient
    they had (`edgeStats_violated`).
43. `postMergeEdges` does not update the automatic protection (C102) of edges that leave `segDataBounds`, although `initAutoProtection` judges them: when an edge inside is merged with an edge of the frame, the
    parts of the new edge keep different flags (`autoProtection_violated`).
44. By reading: `sortEdgesDirectly` that throws half way leaves the nodes before it sorted; explicit labels smaller than the current size are ignored by
    `addNode`/`addEdge`; `LabelLUT::relabel(x, x)` is not guarded.

## Testing the theorems with wrong programs

`seeded/LOG.jsonl` has one line per seeded bug: the definition edited in a scratch copy, the edit, the claim it breaks, whether the build still passed, the
theorems that failed and the theorems tightened as a consequence.  Edits marked as equivalent in the `claim_broken` field do not change the observable behaviour.

## Trusted base

- Lean 4.33.0 kernel; Mathlib as installed (only definitions and proved theorems).
- Axioms: every theorem depends on a subset of `propext`, `Classical.choice`, `Quot.sound` (checked with `#print axioms` by vcheck); no own
  axioms, no `sorry`, no `native_decide`/`bv_decide`.  Concrete witnesses are evaluated with `decide +kernel`, which is checked by the kernel.
- DartPos and Eventually compute with real numbers where the code computes with double; `atan2` is `Complex.arg`.
- The hand translation C++ -> Lean (cited line ranges), which is reviewed, not proved, including the simplifications stated above and in each file.
- The specifications (`Spec.lean` files), which have to be read to know what is proved.

{"id": "C01", "title": "LabelLUT lookup returns the class representative", "statement": "After LabelLUT(n) and any sequence of relabel(from,to) calls in which both arguments are current representatives and differ (interleaved with appendOne), lut[x] == lut[y] holds exactly when x and y have been connected by the relabel calls, and lut[to] == to for every surviving label.", "quantifier": "every n, every finite sequence of appendOne/relabel calls", "why_tests_cant": "The lookup depends on the whole merge history; any test fixes one history.", "anchors": ["src/geomap/labellut.hxx:LabelLUT::relabel", "src/geomap/labellut.hxx:LabelLUT::appendOne", "src/geomap/labellut.hxx:LabelLUT::operator[]"]}
{"id": "C02", "title": "LabelLUT merged-label iteration is exact and terminates", "statement": "For every surviving label r, iterating mergedBegin(r) terminates and yields exactly the labels x with lut[x]==r, each once.", "quantifier": "every relabel history and every surviving label", "why_tests_cant": "A wrong splice in the merged-labels list only shows after particular interleavings of merges; termination is a property of all histories.", "anchors": ["src/geomap/labellut.hxx:LabelLUT::MergedIterator", "src/geomap/labellut.hxx:LabelLUT::relabel"]}
{"id": "C03", "title": "Cell iteration visits exactly the live cells", "statement": "nodesBegin/edgesBegin/facesBegin iterate over precisely the cells that have not been removed, each exactly once, in increasing label order, and inRange() becomes false afterwards.", "quantifier": "every content of the cell vectors, every pattern of removed cells", "why_tests_cant": "The skipping loop must be right for all patterns of holes at both ends and in the middle.", "anchors": ["src/geomap/filteriterator.hxx:FilterIterator", "src/geomap/filteriterator.hxx:SafeFilterIterator", "src/geomap/cppmap.hxx:GeoMap::edgesBegin"]}
{"id": "C04", "title": "Dart navigation forms a combinatorial map", "statement": "In every reachable map alpha is a fixed point free involution on live darts, nextSigma/prevSigma are mutually inverse, nextPhi/prevPhi are mutually inverse, and every walk by one of them returns to its start after finitely many steps, visiting each dart of the orbit exactly once.", "quantifier": "every reachable map, every live dart, every history of Euler operations", "why_tests_cant": "Reachable maps are unbounded in size and history.", "anchors": ["src/geomap/cppmap.hxx:GeoMap::Dart::nextSigma", "src/geomap/cppmap.hxx:GeoMap::Dart::nextPhi", "src/geomap/cppmap.hxx:GeoMap::Dart::prevPhi", "src/geomap/cppmap.cxx:GeoMap::insertSigmaPredecessor", "src/geomap/cppmap.cxx:GeoMap::detachDart"]}
{"id": "C05", "title": "Sigma orbits are exactly the darts around a node", "statement": "In every reachable map the nextSigma orbit of a dart contains exactly the live darts with the same start node; a node is isolated iff no live dart starts there; degree(), hasDegree(n), hasMinDegree(n) agree with the number of darts starting at the node.", "quantifier": "every reachable map and every node", "why_tests_cant": "Needs an invariant over all operation sequences.", "anchors": ["src/geomap/cppmap.hxx:GeoMap::Node::degree", "src/geomap/cppmap.hxx:GeoMap::Node::hasMinDegree", "src/geomap/cppmap.hxx:GeoMap::Node::hasDegree", "src/geomap/cppmap.cxx:GeoMap::mergeEdges", "src/geomap/cppmap.cxx:GeoMap::splitEdge", "src/geomap/cppmap.cxx:GeoMap::removeBridge", "src/geomap/cppmap.cxx:GeoMap::mergeFaces"]}
{"id": "C06", "title": "Face labels are constant along contours and contours are listed exactly once", "statement": "In every reachable initialized map, leftFaceLabel() is the same for d and d.nextPhi(), names a live face, and every contour (nextPhi orbit) is represented by exactly one anchor in the contours of exactly that face.", "quantifier": "every reachable initialized map, every dart", "why_tests_cant": "A missed relabelling or duplicated anchor appears only for specific combinations of bridges, holes and merges.", "anchors": ["src/geomap/cppmap.cxx:GeoMap::mergeFaces", "src/geomap/cppmap.cxx:GeoMap::removeBridge", "src/geomap/cppmap.cxx:GeoMap::mergeEdges", "src/geomap/cppmap.cxx:GeoMap::splitEdge", "src/geomap/cppmap.hxx:GeoMap::Face::Face"]}
{"id": "C07", "title": "Cell counts and label ranges", "statement": "nodeCount/edgeCount/faceCount always equal the number of live cells; each successful Euler operation changes them by exactly its documented amounts (mergeFaces: -1 edge -1 face; removeBridge: -1 edge; mergeEdges: -1 node -1 edge; splitEdge: +1 node +1 edge; removeIsolatedNode: -1 node); maxLabels never decrease and labels are never reused.", "quantifier": "every reachable map and every operation", "why_tests_cant": "Counter drift accumulates over histories.", "anchors": ["src/geomap/cppmap.hxx:GeoMap::nodeCount", "src/geomap/cppmap.cxx:GeoMap::addNode", "src/geomap/cppmap.cxx:GeoMap::addEdge", "src/geomap/cppmap.hxx:GeoMap::Edge::uninitialize"]}
{"id": "C08", "title": "Euler-Poincare formula", "statement": "In every initialized map, nodes - edges + faces - connected components (an isolated node is a component) is 1, and no successful call changes it. Without isolated nodes, nodes - edges + contours = 2 * components and the number of holes of all faces is the number of components. Every face can be reached from the infinite face by crossing edges, every finite face has a contour, and no edge is a loop with the same face on both sides.", "quantifier": "every reachable initialized map and every operation", "why_tests_cant": "Connectedness and the number of orbits are global properties of unbounded permutations.", "anchors": ["src/geomap/cppmap.cxx:GeoMap::checkConsistency", "src/geomap/cppmap.cxx:GeoMap::removeBridge", "src/geomap/cppmap.cxx:GeoMap::mergeFaces"]}
{"id": "C09", "title": "A vetoed operation leaves the map unchanged", "statement": "If a pre-operation hook returns false, mergeFaces/removeBridge/mergeEdges/removeIsolatedNode return a null result and cells, labels, sigma orbits, face labels, geometry, areas and contours of the map are as before the call (mergeEdges may represent a contour by another of its darts).", "quantifier": "every state, every dart, every hook set that vetoes", "why_tests_cant": "Rollback freedom must hold at every state; tests pick a few.", "anchors": ["src/geomap/cppmap.cxx:GeoMap::mergeFaces", "src/geomap/cppmap.cxx:GeoMap::removeBridge", "src/geomap/cppmap.cxx:GeoMap::mergeEdges", "src/geomap/cppmap.hxx:interruptable_accumulator"]}
{"id": "C10", "title": "Hook protocol", "statement": "For each operation the connected pre-hooks are called in order up to and including the first that returns false; post-hooks run exactly once iff all pre-hooks agreed; with no pre-hooks connected the operation proceeds.", "quantifier": "every list of hooks and every return value pattern", "why_tests_cant": "All combinations of hook results.", "anchors": ["src/geomap/cppmap.hxx:interruptable_accumulator", "src/geomap/cppmap.cxx:GeoMap::mergeFaces"]}
{"id": "C11", "title": "mergeEdges undoes splitEdge", "statement": "After splitEdge(e,i) on an initialized map, mergeEdges at the new node restores the edge geometry, the end nodes, face labels, the sigma orbits and the contours (up to the choice of contour anchors).", "quantifier": "every map, every live edge, every interior split index", "why_tests_cant": "Includes loops, bridges, degree-1 ends and anchors on the split edge - a product of cases over unbounded maps.", "anchors": ["src/geomap/cppmap.cxx:GeoMap::splitEdge", "src/geomap/cppmap.cxx:GeoMap::mergeEdges"]}
{"id": "C12", "title": "Locality of Euler operations", "statement": "An Euler operation removes exactly the documented cells and leaves label, end nodes and geometry of every other edge and position of every other node untouched; only face labels of the merged face's darts change, to the survivor's label.", "quantifier": "every state, operation and unaffected cell", "why_tests_cant": "Frame conditions quantify over all other cells.", "anchors": ["src/geomap/cppmap.cxx:GeoMap::mergeFaces", "src/geomap/cppmap.cxx:GeoMap::removeBridge", "src/geomap/cppmap.cxx:GeoMap::mergeEdges", "src/geomap/cppmap.cxx:GeoMap::splitEdge"]}
{"id": "C13", "title": "Face areas are additive", "statement": "area(face) is the sum of the signed areas of its contours; mergeFaces makes the survivor's area the sum of both areas; removeBridge, mergeEdges and splitEdge change no area; hence the areas of all faces including the infinite one sum to zero in every reachable map.", "quantifier": "every reachable map, every real-valued geometry", "why_tests_cant": "Cached values after arbitrary histories must equal recomputation.", "anchors": ["src/geomap/cppmap.hxx:GeoMap::Face::area", "src/geomap/cppmap.cxx:contourArea", "src/geomap/cppmap.cxx:GeoMap::mergeFaces"]}
{"id": "C14", "title": "The first contour of a finite face is its outer contour", "statement": "After any Euler operation contour 0 of every finite face is the one with positive area enclosing all others.", "quantifier": "every reachable map", "why_tests_cant": "Only rare configurations (survivor nested in a hole of the merged face) are affected.", "anchors": ["src/geomap/cppmap.cxx:GeoMap::mergeFaces", "src/geomap/cppmap.cxx:GeoMap::checkConsistency", "src/geomap/cppmap.hxx:GeoMap::Face::contour"]}
{"id": "C15", "title": "Label image invariant", "statement": "With the label image enabled, after any history a pixel crossed by k>0 edges holds -k and every other pixel holds a label whose lookup is the face it belongs to; removing an edge returns each freed pixel to the surviving face and reports it exactly once through associatePixels.", "quantifier": "every image, every multiset of scanlines, every removal order", "why_tests_cant": "Depends on overlap multiplicities of unboundedly many edges.", "anchors": ["src/geomap/cppmap.cxx:markEdgeInLabelImage", "src/geomap/cppmap.cxx:removeEdgeFromLabelImage", "src/geomap/cppmap.cxx:rawAddEdgeToLabelImage", "src/geomap/cppmap.hxx:GeoMap::LabelImageAccessor"]}
{"id": "C16", "title": "pixelArea equals the number of the face's pixels", "statement": "With the label image enabled, pixelArea() of each face equals the number of label-image pixels that resolve to the face, after any sequence of merges and bridge removals.", "quantifier": "every reachable labelled map", "why_tests_cant": "Double counting shows only with overlapping edges and repeated enabling.", "anchors": ["src/geomap/cppmap.hxx:GeoMap::Face::pixelArea", "src/geomap/cppmap.cxx:GeoMap::associatePixels", "src/geomap/cppmap.cxx:GeoMap::setHasLabelImage", "src/geomap/cppmap.cxx:GeoMap::mergeFaces"]}
{"id": "C17", "title": "Merged face labels resolve to the survivor", "statement": "After mergeFaces every pixel carrying the label of the merged face, or of a face merged earlier into it, is reported as belonging to the survivor, and no other pixel changes.", "quantifier": "every merge history", "why_tests_cant": "Transitive chains of merges.", "anchors": ["src/geomap/cppmap.cxx:GeoMap::mergeFaces", "src/geomap/labellut.hxx:LabelLUT::relabel"]}
{"id": "C18", "title": "changeFaceLabels is a consistent renaming or rejects", "statement": "If changeFaceLabels succeeds, every dart's left face, every face's own label and every pixel are renamed by the same map; if a precondition fails the map is left unchanged.", "quantifier": "every label list and every map", "why_tests_cant": "All label vectors, duplicates, and failure points.", "anchors": ["src/geomap/cppmap.cxx:GeoMap::changeFaceLabels"]}
{"id": "C19", "title": "Copies are equal and independent", "statement": "A copy-constructed GeoMap is observably equal to its source, its cells and darts refer to the copy, and operations on one never affect the other: each behaves as if only its own operations had been made.", "quantifier": "every map whose cells are stored under their own labels (a refused changeFaceLabels can break that), every interleaving of later operations on both", "why_tests_cant": "Sharing bugs show only under particular later mutations.", "anchors": ["src/geomap/cppmap.cxx:GeoMap::GeoMap(const GeoMap&)", "src/geomap/cppmap.hxx:GeoMap::Node", "src/geomap/cppmap.hxx:GeoMap::Edge", "src/geomap/cppmap.hxx:GeoMap::Face"]}
{"id": "C20", "title": "EdgeProtection keeps protected edges", "statement": "While an EdgeProtection is attached, no sequence of mergeFaces/removeBridge/mergeEdges/splitEdge/removeEdges/... calls removes a protected edge without edges with the same protection flags covering its geometry (exactly the same flags, if only basic operations are called); edges with different flags are never joined.", "quantifier": "every sequence of operations with protection attached (flags of protected edges not changed by the client, map initialized when removeEdge is called) and every set of further callbacks", "why_tests_cant": "Safety over all histories.", "anchors": ["src/geomap/cppmap_utils.hxx:EdgeProtection"]}
{"id": "C21", "title": "Bulk clean-up functions reach their fixpoint", "statement": "removeIsolatedNodes leaves no isolated node and returns the number removed; mergeDegree2Nodes leaves no degree-2 node except loops and vetoed ones and returns the number removed.", "quantifier": "every map, every veto pattern", "why_tests_cant": "Iteration while mutating must be right for all maps.", "anchors": ["src/geomap/cppmap_utils.cxx:removeIsolatedNodes", "src/geomap/cppmap_utils.cxx:mergeDegree2Nodes"]}
{"id": "C22", "title": "removeBridges / removeEdges terminate and remove exactly the requested edges", "statement": "removeBridges(map, list), removeBridges(map) and removeEdges(labels) with distinct existing labels return normally, whatever the callbacks answer. Each requested edge is removed unless a callback refused it, no other edge is removed, the nodes are cleaned up afterwards (no isolated node and no degree-2 node except loops, unless refused), and the result is the number of removed edges plus removed nodes.", "quantifier": "every list of edge labels, every map", "why_tests_cant": "List contents and graph shape are unbounded.", "anchors": ["src/geomap/cppmap_utils.cxx:removeBridges", "src/geomap/cppmap_utils.hxx:removeEdges"]}
{"id": "C23", "title": "mergeFacesCompletely removes every common edge", "statement": "mergeFacesCompletely(dart) without vetoes leaves no edge between the two faces on the contour of dart: all their common edges of that contour are gone and a single face survives.", "quantifier": "every map and every non-bridge dart", "why_tests_cant": "Any number of common edges in any cyclic arrangement.", "anchors": ["src/geomap/cppmap_utils.cxx:mergeFacesCompletely"]}
{"id": "C24", "title": "Sigma storage is memory safe", "statement": "addEdge/splitEdge/setSigmaMapping never access the sigma arrays outside their bounds and growing the arrays preserves sigma of every existing dart.", "quantifier": "every number of edges added, every resize point", "why_tests_cant": "Growth points are at unbounded sizes; overflow is silent.", "anchors": ["src/geomap/cppmap.cxx:GeoMap::resizeSigmaMapping", "src/geomap/cppmap.cxx:GeoMap::addEdge", "src/geomap/cppmap.cxx:GeoMap::setSigmaMapping", "src/geomap/cppmap.cxx:GeoMap::insertSigmaPredecessor"]}
{"id": "C25", "title": "Graph construction", "statement": "After any sequence of addNode/addEdge/removeEdge/removeIsolatedNode before initialization, every dart is in the orbit of its start node, each node's orbit is a single cycle, and cell counts match.", "quantifier": "every construction sequence", "why_tests_cant": "Unbounded sequences.", "anchors": ["src/geomap/cppmap.cxx:GeoMap::addNode", "src/geomap/cppmap.cxx:GeoMap::addEdge", "src/geomap/cppmap.cxx:GeoMap::removeEdge"]}
{"id": "C26", "title": "Edges are sorted by angle", "statement": "angleTheta orders directions exactly as the mathematical angle in (-pi,pi]; after sortEdgesDirectly the nextSigma order around each node is the cyclic order of the outgoing directions, and equal directions are rejected.", "quantifier": "all direction vectors over an ordered field, all nodes", "why_tests_cant": "Real-valued inputs, all quadrant combinations.", "anchors": ["src/geomap/cppmap.cxx:angleTheta", "src/geomap/cppmap.cxx:GeoMap::sortEdgesDirectly"]}
{"id": "C27", "title": "initializeMap assigns every dart to exactly one face", "statement": "After initContours/embedFaces every live dart lies on exactly one contour of exactly one live face and leftFaceLabel agrees with that face, whatever the outcome of the geometric containment tests.", "quantifier": "every graph, every outcome of geometric tests", "why_tests_cant": "All graphs.", "anchors": ["src/geomap/cppmap.cxx:GeoMap::initContours", "src/geomap/cppmap.cxx:GeoMap::embedFaces", "src/geomap/cppmap.hxx:GeoMap::Face::Face", "src/geomap/cppmap.hxx:GeoMap::Face::embedContour"]}
{"id": "C28", "title": "nearestNode returns a nearest node within range", "statement": "As long as no two nodes are at the same position, nearestNode(p, maxDist2) returns a node at minimal distance among those with squared distance < maxDist2 and null iff there is none, after any additions, removals and moves of nodes; a removed node is never returned. (With two nodes at one position, removing one can make the other unfindable.)", "quantifier": "every point set, query and removal history", "why_tests_cant": "The early-exit scan must be right for all point sets, including ties in x.", "anchors": ["src/geomap/vigra/map2d.hxx:Map2D::nearest", "src/geomap/cppmap.cxx:GeoMap::nearestNode", "src/geomap/cppmap.hxx:GeoMap::Node::uninitialize"]}
{"id": "C29", "title": "Cached polygon length and area equal recomputation", "statement": "length() and partialArea() always return the value recomputed from the current points, after any sequence of push_back, extend, setPoint, insert, erase, split, reverse, swap and queries.", "quantifier": "every sequence of polygon operations", "why_tests_cant": "The caches interact with each mutation and each query order.", "anchors": ["src/geomap/polygon.hxx:Polygon::push_back", "src/geomap/polygon.hxx:Polygon::extend", "src/geomap/polygon.hxx:Polygon::split", "src/geomap/polygon.hxx:Polygon::reverse", "src/geomap/polygon.hxx:Polygon::partialArea"]}
{"id": "C30", "title": "Polygon area algebra", "statement": "partialArea is additive under concatenation of polylines sharing an end point, changes sign under reverse, and splitting a polygon at any index preserves the sum of areas and of lengths.", "quantifier": "every polyline over an ordered field, every split index", "why_tests_cant": "Infinite domain.", "anchors": ["src/geomap/polygon.hxx:Polygon::split", "src/geomap/polygon.hxx:Polygon::extend", "src/geomap/polygon.hxx:Polygon::reverse", "src/geomap/cppmap.cxx:GeoMap::Edge::concatenate"]}
{"id": "C31", "title": "Bounding boxes contain and are tight", "statement": "boundingBox() is the least box containing all points after any sequence of BBoxPolygon mutations.", "quantifier": "every sequence of mutations", "why_tests_cant": "Incremental maintenance over all histories.", "anchors": ["src/geomap/polygon.hxx:BBoxPolygon"]}
{"id": "C32", "title": "Point-in-polygon parity", "statement": "contains(p) on a closed polygon equals the parity of the segments crossing the ray to the left of p; it does not depend on orientation or starting point, it is the exclusive or of the parts when a polygon is cut in two, and it is false outside the bounding box; a polygon that is not closed is rejected.", "quantifier": "every closed polygon and point", "why_tests_cant": "Infinite domain with boundary cases.", "anchors": ["src/geomap/polygon.hxx:Polygon::contains"]}
{"id": "C33", "title": "simplifyPolygon keeps end points and the tolerance", "statement": "simplifyPolygon of a polyline with at least two points returns a subsequence containing the first and last point, and each dropped point is within perpendicular distance epsilon of the line through the kept neighbours (or of the end point for closed chords); with a maximal step, two kept neighbours are not further apart unless they were neighbours before. A single point is returned twice and an empty polyline is read out of bounds.", "quantifier": "every polyline and tolerance", "why_tests_cant": "Recursion depth unbounded.", "anchors": ["src/geomap/polygon.hxx:simplifyPolygon", "src/geomap/polygon.hxx:simplifyPolygonHelper"]}
{"id": "C34", "title": "convexHull result is convex and covers the input", "statement": "convexHull returns a closed polygon whose vertices are input points, which turns in one direction only, and which contains every input point.", "quantifier": "every finite point set", "why_tests_cant": "Infinite domain.", "anchors": ["src/geomap/polygon.hxx:convexHull"]}
{"id": "C35", "title": "Scanline normalisation and filling", "statement": "normalize keeps the set of covered pixels of each line and makes segments disjoint and sorted; reverse negates crossing directions; filling visits each covered pixel once.", "quantifier": "every scanline content", "why_tests_cant": "All segment multisets.", "anchors": ["src/geomap/polygon.hxx:Scanlines::normalize", "src/geomap/polygon.hxx:Scanlines::reverse", "src/geomap/polygon.hxx:fillScannedPoly", "src/geomap/polygon.hxx:ScanlineSegment::joinSuccessor"]}
{"id": "C36", "title": "crackConnectionImage marks exactly the label changes", "statement": "Bit RIGHT (DOWN) of a corner is set iff the two pixels on both sides of that crack differ or the crack is on the image border; after symmetrisation LEFT/UP mirror them; no corner has exactly one crack.", "quantifier": "every image size and label content", "why_tests_cant": "All images.", "anchors": ["src/geomap/vigra/crackconnections.hxx:crackConnectionImage", "src/geomap/crackedgemap.cxx:makeCCSymmetric", "src/geomap/crackedgemap.cxx:markNodes"]}
{"id": "C37", "title": "A crack edge map contains each crack exactly once", "statement": "For every non-empty label image the crack edge map generator terminates without reading outside its images, and in the resulting map each crack (in each direction) is one segment of one dart, all segments are cracks, every junction is a node, no edge passes through a junction or its own end node, and the label on each side of an edge is the same all along it. With four-connected regions different edges share no points but nodes. Sorting and initializing succeed; the label to the left is constant along each contour, and the border of the image seen from outside is one contour.", "quantifier": "every non-empty label image, both connectivity modes, and every way of finding enclosing faces", "why_tests_cant": "Walk lengths and image contents are unbounded.", "anchors": ["src/geomap/crackedgemap.cxx:followEdge", "src/geomap/crackedgemap.cxx:followAllEdgesStartingWith"]}
{"id": "C38", "title": "CellPyramid levels replay the history", "statement": "getLevel(i) equals the base segmentation after the first i recorded operations, for every i < levelCount(), whatever checkpoints were stored; gotoLevel/approachLevel reach the same state from any level.", "quantifier": "every history of operations, checkpoints, cuts and navigation", "why_tests_cant": "Checkpoint positions depend on the whole history.", "anchors": ["src/cellimage/cellpyramid.hxx:CellPyramid::Level::gotoLevel", "src/cellimage/cellpyramid.hxx:CellPyramid::getLevel", "src/cellimage/cellpyramid.hxx:CellPyramid::cutAbove"]}
{"id": "C39", "title": "CellPyramid stays consistent on failures and composites", "statement": "A failing operation leaves the pyramid as before the call; changeIntoComposite/endComposite keep topLevel().index() == levelCount()-1.", "quantifier": "every failing operation, every composite nesting", "why_tests_cant": "Exception paths at any point of a history.", "anchors": ["src/cellimage/cellpyramid.hxx:CellPyramid::addAndPerformOperation", "src/cellimage/cellpyramid.hxx:CellPyramid::changeIntoComposite", "src/cellimage/cellpyramid.hxx:CellPyramid::endComposite"]}
{"id": "C40", "title": "Cell pixel and dart serialisation round trips", "statement": "CellPixel(type,label) returns type and label for every label below 2^30; a serialised dart deserialises to the same position and direction for images up to 2^14 pixels per side, and not beyond.", "quantifier": "every label, type, coordinate and direction in range", "why_tests_cant": "2^32 values; boundaries.", "anchors": ["src/cellimage/cellimage.hxx:CellPixel", "src/cellimage/foureightsegmentation.hxx:DartTraverser::serialize"]}
{"id": "C41", "title": "Scan iteration over a cell visits exactly its pixels", "statement": "LabelScanIterator over a rectangle visits each pixel carrying the cell's type and label exactly once in raster order and terminates.", "quantifier": "every image, rectangle and label", "why_tests_cant": "All images and rectangles, including empty and one-column ones.", "anchors": ["src/cellimage/foureightsegmentation.hxx:LabelScanIterator", "src/geomap/filteriterator.hxx:ImageFilterIterator"]}
{"id": "C42", "title": "Digital straight line transforms", "statement": "mirrorX/mirrorY/mirrorXY/convertToFourConnected map the set of contained points by the corresponding geometric transformation, and addPoint returns true only if the new point is contained afterwards.", "quantifier": "all integer parameters and points", "why_tests_cant": "Infinite integer domain.", "anchors": ["src/geomap/vigra/dsl.hxx:DigitalStraightLine"]}
{"id": "C43", "title": "Face statistics equal recomputation after merges", "statement": "After any history of operations, vetoed or not, with statistics attached and no supersampling, the statistics of every face equal those accumulated over all of its pixels from scratch; with supersampling this holds for every face not marked as supersampled. Attached statistics never change what an operation does to the map.", "quantifier": "every map with label image, every image, every history of calls, hooks and vetoes", "why_tests_cant": "Accumulated state over histories.", "anchors": ["src/geomap/facestatistics.hxx:FaceColorStatistics::preMergeFaces", "src/geomap/facestatistics.hxx:FaceColorStatistics::postMergeFaces", "src/geomap/facestatistics.hxx:FaceColorStatistics::associatePixels"]}
{"id": "C44", "title": "Supersampling bookkeeping is consistent and safe", "statement": "superSampledCount equals the number of faces marked as supersampled, the mark table exists iff the count is positive, and no merge dereferences a missing table.", "quantifier": "every map with label image, image, minimum sample count and history of calls", "why_tests_cant": "Only the last supersampled face triggers the release path.", "anchors": ["src/geomap/facestatistics.hxx:FaceColorStatistics::postMergeFaces", "src/geomap/facestatistics.hxx:FaceColorStatistics::associatePixels"]}
{"id": "C45", "title": "Contour point iteration", "statement": "Iterating the points of a dart yields the edge's points in forward or reverse order; iterating a contour whose edges have at least two points yields the concatenation of its darts' points with each shared node once, and terminates.", "quantifier": "every contour of every reachable map and every edge geometry with at least two points per edge", "why_tests_cant": "Unbounded contours.", "anchors": ["src/geomap/cppmap.hxx:DartPointIter", "src/geomap/cppmap.hxx:ContourPointIter", "src/geomap/cppmap.cxx:contourPoly"]}
{"id": "C46", "title": "Edge concatenation", "statement": "Edge::concatenate joins the two polylines at the common node in all four orientation combinations with the common point once.", "quantifier": "all pairs of polylines and orientation flags", "why_tests_cant": "Infinite domain.", "anchors": ["src/geomap/cppmap.cxx:GeoMap::Edge::concatenate"]}
{"id": "C47", "title": "Node moves keep edges attached", "statement": "After node.setPosition(p) every dart starting at the node has p as its first point and no other point changes.", "quantifier": "every node degree including loops", "why_tests_cant": "All orbits.", "anchors": ["src/geomap/cppmap.cxx:GeoMap::Node::setPosition"]}
{"id": "C48", "title": "Oversampling convolution stays in bounds", "statement": "oversamplingConvolutionLine reads only samples of the line and kernel elements inside the kernel for every admissible line length and radius.", "quantifier": "all lengths and radii satisfying the precondition", "why_tests_cant": "All sizes.", "anchors": ["src/geomap/vigra/oversampling.hxx:oversamplingConvolutionLine"]}
{"id": "C49", "title": "No call misbehaves", "statement": "On a map obtained by any history of calls, every further call (addNode, addEdge, sortEdgesDirectly, initializeMap, removeIsolatedNode, mergeEdges, splitEdge, removeBridge, mergeFaces, removeEdge, Face::area, Edge::setFlag, degree queries) either returns normally or reports a violated precondition: it never dereferences a null cell and never loops forever.", "quantifier": "every history of calls with arguments respecting the documented obligations (SigmaAnchor from an existing node, non-empty edge geometry, only isolated nodes passed to removeIsolatedNode, area of an existing face)", "why_tests_cant": "Termination of orbit walks and absence of null dereferences depend on global invariants over all histories.", "anchors": ["src/geomap/cppmap.cxx:GeoMap::mergeFaces", "src/geomap/cppmap.cxx:GeoMap::removeBridge", "src/geomap/cppmap.cxx:findComponentAnchor", "src/geomap/cppmap.cxx:contourArea"]}
{"id": "C50", "title": "Contour sorting is well defined", "statement": "The comparison function handed to std::sort when contours are embedded during initializeMap is a strict weak ordering, so the sort is defined; after it, every hole contour comes after all face contours that are larger by at least 0.01 (so its surrounding face already exists when it is embedded), and before face contours of nearly equal area.", "quantifier": "all triples of contour areas, all lists of contours", "why_tests_cant": "Undefined behaviour of std::sort on invalid comparison functions depends on the particular input order and size.", "anchors": ["src/geomap/cppmap.cxx:AbsAreaCompare", "src/geomap/cppmap.cxx:GeoMap::embedFaces"]}
{"id": "C51", "title": "sigmaMapping round trip", "statement": "The list returned by sigmaMapping() (as used for pickling), passed to setSigmaMapping of a map with the same existing edges, restores nextSigma and prevSigma of every dart, also when edges have been removed and when trailing labels are missing in the new map.", "quantifier": "every reachable map, every set of removed edges, every storage size of both maps", "why_tests_cant": "The list is trimmed and filtered depending on which labels are unused; all combinations of removed labels and storage sizes.", "anchors": ["src/python_bindings/cppmapmodule.cxx:GeoMap_sigmaMapping", "src/python_bindings/cppmapmodule.cxx:GeoMapPickleSuite", "src/geomap/cppmap.cxx:GeoMap::setSigmaMapping"]}
{"id": "C52", "title": "removeEdges is memory safe for every label list", "statement": "removeEdges and removeBridges never run into undefined behaviour, whatever list of edge labels they are given (labels may be repeated) and whatever flags the client has set on the edges.", "quantifier": "every list of labels, every assignment of flags, every map", "why_tests_cant": "Lists and maps are unbounded; the failing inputs need a repeated bridge both of whose ends have other edges.", "anchors": ["src/geomap/cppmap_utils.cxx:removeBridges", "src/geomap/cppmap_utils.hxx:removeEdges"]}
{"id": "C53", "title": "Scan conversion covers exactly the pixels a polygon line passes through", "statement": "The scanlines of a polygon (scanPoly) cover a pixel of the scanned range iff some point of the polygon line lies in the open unit square around the pixel centre; the segments of a line are sorted, disjoint and do not touch; scanning with the bounding box misses no pixel.", "quantifier": "for every polygon line (open or closed, any number of points, any coordinates, including vertices and segments exactly on pixel boundaries) and every range of lines", "why_tests_cant": "the incremental algorithm has many cases (vertices on pixel boundaries, horizontal segments, many lines crossed at once) and must be right for all coordinates", "anchors": ["src/geomap/polygon.hxx: scanPoly", "src/geomap/polygon.hxx: Scanlines"]}
{"id": "C54", "title": "Filling a scanned polygon fills exactly its interior", "statement": "fillScannedPoly writes, exactly once each, the image pixels that the closed polygon line does not pass through and whose centre it winds around a positive number of times, returns their number, and does not throw; the winding number is odd iff contains() holds for the centre; drawScannedPoly writes exactly the pixels passed through, once each. A polygon of the other orientation is not filled.", "quantifier": "for every closed polygon, every image size and every range of scanned lines, including polygons reaching outside the image", "why_tests_cant": "the crossing directions are accumulated over all segments; a miscount shows only for particular combinations of crossings", "anchors": ["src/geomap/polygon.hxx: fillScannedPoly", "src/geomap/polygon.hxx: drawScannedPoly"]}
{"id": "C55", "title": "Scanline iteration visits each covered pixel once", "statement": "A ScanlinesIter over scanlines with at least one segment visits the pixels of all segments in order, each once, and ends; over the scanlines of a polygon these are exactly the pixels passed through. Constructing it over scanlines without any segment reads out of bounds.", "quantifier": "for all scanlines", "why_tests_cant": "nested loops over lines, segments and columns with empty lines and empty segments anywhere", "anchors": ["src/geomap/polygon.hxx: ScanlinesIter"]}
{"id": "C56", "title": "Source labels of crack edge map faces", "statement": "getSourceLabels assigns each finite face of an initialized crack edge map the label of the pixels on the inner side of its outer contour (for every crack of that contour), reads only pixels of the image, and leaves other array entries unchanged; it throws if the map is not initialized or the array is too small.", "quantifier": "every non-empty label image, both connectivity modes, every face, every way of finding enclosing faces", "why_tests_cant": "depends on the shape of every face of every image, and on contour orientation", "anchors": ["src/geomap/crackedgemap.hxx: getSourceLabels"]}
{"id": "C57", "title": "Faces partition the plane and operations keep points in their faces", "statement": "Once the faces of a planar drawing have been created, at any later time every point that is on no edge lies in exactly one existing face (its contours wind once around it), and every point of an edge is a limit of points of the faces left and right of it. An operation never moves a point to another face: mergeFaces gives the surviving face exactly the points of both faces and of the removed edge, removeBridge adds the points of the edge to its face, mergeEdges/splitEdge/other calls leave every face exactly its points, changeFaceLabels renames only.", "quantifier": "every map that is a subdivision of the plane when its faces are created, every later history of Euler operations, bookkeeping calls and face renamings with any callbacks, every point of the plane", "why_tests_cant": "ranges over all points of the plane and all histories", "anchors": ["src/geomap/cppmap.cxx: GeoMap::mergeFaces, removeBridge, mergeEdges, splitEdge, changeFaceLabels", "src/geomap/cppmap.hxx: Face"]}
{"id": "C58", "title": "Point queries answer with the face the point lies in", "statement": "faceAt(point) returns the face that contains the point, contains(point) of a face says whether the point lies in this face, and boundingBox() of a finite face contains all points of the face, at any time, with or without a label image, whichever bounding boxes have been computed before and whichever faces have been merged since. Asking for boxes never changes what operations do. faceAt is refused before the faces exist and boundingBox for the infinite face.", "quantifier": "every map that is a subdivision of the plane when its faces are created, every later history of operations, face renamings, box computations and switching on the label image, every face, every point of the plane that is on no edge", "why_tests_cant": "ranges over all points of the plane, all histories and all orders of queries and changes (caches of bounding boxes)", "anchors": ["src/geomap/cppmap.hxx: Face::boundingBox, Face::contains", "src/geomap/cppmap.cxx: GeoMap::faceAt, GeoMap::mergeFaces, GeoMap::changeFaceLabels"]}
{"id": "C59", "title": "checkConsistency is safe and its answer is understood", "statement": "checkConsistency() of a map built with the API reads no invalid memory, terminates, and returns true exactly if every edge has at least two points and runs from the position of its start node to the position of its end node, and (once faces exist) exactly the first contour of each finite face has positive area. In particular it returns true before and right after initializeMap for edges with at least two points whose ends are at their nodes. All its other tests (sigma arrays inverse of each other, node and face orbits, cell counts, both Euler formulas) can never fail.", "quantifier": "every history of calls, every storage of the sigma arrays that the history can produce", "why_tests_cant": "ranges over all maps and histories; the Euler tests depend on global properties of unbounded permutations", "anchors": ["src/geomap/cppmap.cxx: GeoMap::checkConsistency", "src/geomap/cppmap.cxx: GeoMap::initializeMap, GeoMap::mergeFaces, GeoMap::splitEdge"]}
{"id": "C60", "title": "Length, area and bounding box of edges are those of their current points", "statement": "At any time length(), partialArea() and boundingBox() of an edge return the value computed from the points the edge has then, no matter which of them were asked for (and cached) before and which operations changed the edge since; asking has no influence on any operation. mergeEdges adds the lengths of the two edges, splitEdge at an existing point divides length and area. (Not true after Node::setPosition, see C47.)", "quantifier": "every history of construction and Euler operations, renaming and queries in any order", "why_tests_cant": "the caches are updated incrementally; each order of queries and operations leaves another combination of valid caches", "anchors": ["src/geomap/polygon.hxx: Polygon::length, Polygon::partialArea, BBoxPolygon::boundingBox, Polygon::split, Polygon::insert", "src/geomap/cppmap.cxx: GeoMap::Edge::concatenate, GeoMap::mergeEdges, GeoMap::splitEdge, GeoMap::Node::setPosition"]}
{"id": "C61", "title": "Pickling and unpickling gives the same map", "statement": "Unpickling a pickled map succeeds and gives a map with the same nodes, edges, order of the darts around every node, faces, contours, flags, counts and labels; an uninitialised map comes back uninitialised.", "quantifier": "every map that can be made by a history of construction and Euler operations and renaming, with any flags", "why_tests_cant": "labels have gaps that depend on the history; faces are not stored but searched again, renumbered and matched by one dart each", "anchors": ["src/python_bindings/cppmapmodule.cxx: createGeoMap, GeoMapPickleSuite::getinitargs, GeoMapPickleSuite::getstate, GeoMapPickleSuite::setstate, GeoMap_sigmaMapping, GeoMap_setSigmaMapping", "src/geomap/cppmap.cxx: GeoMap::setSigmaMapping, GeoMap::initializeMap, GeoMap::embedFaces, GeoMap::changeFaceLabels"]}
{"id": "C62", "title": "Every finite face has exactly one outer contour", "statement": "At any time, exactly one contour of every finite face has positive area: it winds once, counterclockwise in the sense of positive area, around every point of the face. All other contours of the face, and all contours of the infinite face, are boundaries of holes: they have no positive area, wind around no point of the face and wind around any other point at most once, in the opposite sense.", "quantifier": "every map that is a subdivision of the plane when its faces are created, every later history of operations and renamings, every face, every contour, every point on no edge", "why_tests_cant": "Ranges over all drawings, histories and points of the plane; a test sees the order of areas of a few faces only.", "anchors": ["src/geomap/cppmap.cxx: GeoMap::mergeFaces, GeoMap::removeBridge, GeoMap::embedFaces", "src/geomap/cppmap.hxx: Face::contours, contourArea"]}
{"id": "C63", "title": "Calls are refused exactly when a documented precondition is violated", "statement": "addNode, addEdge, sortEdgesDirectly, initializeMap, removeIsolatedNode, mergeEdges, splitEdge, removeBridge, mergeFaces, removeEdge, Face::area and Edge::setFlag report a violated precondition exactly in the listed cases (dead dart, map already initialised, sorted node that is not isolated, node not of degree two, edge with the same or with different faces on its sides, segment index out of range, darts without direction or with equal directions). In particular every edge of an initialised map can be removed by exactly one of removeBridge and mergeFaces.", "quantifier": "every map obtained by any history of calls, every call with every argument, every behaviour of the hooks", "why_tests_cant": "A precondition that is too strong or too weak shows only on particular maps and arguments.", "anchors": ["src/geomap/cppmap.cxx: GeoMap::addEdge, sortEdgesDirectly, initializeMap, removeIsolatedNode, mergeEdges, splitEdge, removeBridge, mergeFaces, removeEdge", "src/geomap/cppmap.hxx: GeoMap::SigmaAnchor"]}
{"id": "C64", "title": "A DartPosition stays on its dart at the arc length it reports", "statement": "A DartPosition always lies on the polyline of its dart, at the point with the arc length that arcLength() reports; segmentIndex(), segmentStart() and segmentEnd() name the segment it lies in. gotoArcLength goes to the point with the given arc length and returns false only if there is none; gotoPrevSegment goes to the beginning of the previous segment; leaveCircle goes to the first following support point not inside the circle and intersectCircle to the first following point on the circle. No call reads outside of the points of the dart.", "quantifier": "every dart with at least two points in both directions, every history of calls with all arguments", "why_tests_cant": "Ranges over all polylines, all circles and all sequences of calls with real arguments.", "anchors": ["src/geomap/cppmap.hxx: DartPosition::gotoArcLength, gotoNextSegment, gotoPrevSegment, leaveCircle, intersectCircle, nextSegmentInternal, prevSegmentInternal", "src/python_bindings/cppmapmodule.cxx: DartPosition"]}
{"id": "C65", "title": "sortEdgesEventually orders nearly parallel edges", "statement": "On a map that is not initialized, sortEdgesEventually(stepDist, minDist) ends, changes nothing but the cyclic order of the darts around the nodes, leaves a map on which all later operations work, and orders the darts of a node by the directions in which they leave the circle of radius stepDist wherever these directions leave a gap of at least atan2(minDist, stepDist). The groups of unsortable darts it reports consist of consecutive darts of one node that stay closer than that angle up to their ends, whatever their direction. It throws if the map is initialized.", "quantifier": "every map reachable by a history of calls, all stepDist and minDist, every sorting algorithm std::sort may be, with and without splitting", "why_tests_cant": "Ranges over all maps with real coordinates and all radii; the recursion has no bound.", "anchors": ["src/geomap/cppmap.cxx: GeoMap::sortEdgesEventually, sortEdgesInternal, normAngle, rotateArray", "src/geomap/cppmap.hxx: detail::DartPositionAngle, detail::PlannedSplits"]}
{"id": "C66", "title": "Linear resampling places points at equal distances on the polygon", "statement": "resamplePolygonLinearInterpolation(poly, d) returns points that lie on poly at equal arc length distances, the smallest number of equal steps that are not longer than d, starts and ends with the end points of poly, and neighbouring points of the result are at most d apart.", "quantifier": "every polygon and every positive point distance", "why_tests_cant": "Ranges over all polygons with real coordinates, with repeated points and segments longer and shorter than the distance, and all distances.", "anchors": ["src/geomap/polygon.hxx: resamplePolygonLinearInterpolation, PointArray::arcLengthList"]}
{"id": "C67", "title": "Least squares resampling", "statement": "resamplePolygon(poly, d) works for every polygon, returns one point more than the number of steps of at most d (at least the end points and, for a closed polygon, a third point), keeps the end points of open polygons, returns closed polygons for closed ones, and yields points d or less apart on a straight line.", "quantifier": "every polygon and every positive point distance", "why_tests_cant": "Ranges over all polygons and distances; the arrays are indexed by arc lengths, so a rare relation of arc length and index would be an access out of range.", "anchors": ["src/geomap/polygon.hxx: resamplePolygon"]}
{"id": "C68", "title": "Resampling with an exponential filter smooths inside of the hull", "statement": "resamplePolygonExponentialFilter(poly, scale, d) works for every polygon; for a closed polygon the result is closed and stays in the convex hull of the polygon; an open polygon keeps its end points.", "quantifier": "every polygon, every scale and every positive point distance", "why_tests_cant": "Ranges over all polygons, scales and distances; the weights are exponentials and the sampling positions depend on the smoothed curve.", "anchors": ["src/geomap/polygon.hxx: resamplePolygonExponentialFilter"]}
{"id": "C69", "title": "Simplification by digital lines", "statement": "simplifyPolygonDigitalLine(poly, connectivity) succeeds for every pixel path, never adds points, keeps the end points of open polygons, returns closed polygons for closed ones, and drops only points that are near the digital line that replaces them.", "quantifier": "every polygon and both connectivities", "why_tests_cant": "Ranges over all polygons; the intersection of consecutive lines is undefined only for particular arrangements.", "anchors": ["src/geomap/polygon.hxx: simplifyPolygonDigitalLine, digitalLineIntersection"]}
{"id": "C70", "title": "Polygons follow Python's rules for indices", "statement": "For a polygon p of n points, p[i], p[i] = x, p.split(i), p.insert(i, x) and del p[i] mean the place that Python's lists mean (negative indices count from the end) and raise IndexError for places that do not exist; no index makes a call undefined.", "quantifier": "every polygon, every integer index and every point", "why_tests_cant": "Ranges over all polygon lengths and all integers; the off-by-one only shows for negative indices and the place behind the end.", "anchors": ["src/python_bindings/exporthelpers.hxx: checkPythonIndex, Array__getitem__", "src/python_bindings/polygon.cxx: Polygon__setitem__, insert, erase, split"]}
{"id": "C71", "title": "Cutting a polygon at a line", "statement": "intersectLine(poly, a, b) returns the parts of the polygon in the half-plane beside the line through a and b: one part for every maximal run of points in the half-plane, in order, with the points of the run, and with the exact points of intersection where the polygon enters and leaves the half-plane.", "quantifier": "every polygon and every line given by two different points", "why_tests_cant": "Ranges over all real polygons and lines; the wrong point depends on the distance of an earlier point.", "anchors": ["src/python_bindings/polygon.cxx: intersectLine"]}
{"id": "C72", "title": "Edges in a label image can be marked and removed in any order", "statement": "After any history of markEdgeInLabelImage and removeEdgeFromLabelImage, every pixel of the image holds minus the number of marked edges over it, and its newest label if there is none; removing an edge returns exactly the pixels that become free, each once; no call writes outside of the image.", "quantifier": "every image, all scanlines (also partly or completely outside of the image) and all histories in which an edge is removed as often as it was marked at most", "why_tests_cant": "Ranges over all interleavings of marking and removing overlapping edges.", "anchors": ["src/python_bindings/polygon.cxx: markEdgeInLabelImage, removeEdgeFromLabelImage"]}
{"id": "C73", "title": "Tangents and curvature along a polygon", "statement": "tangentList(poly, dx, skip) and curvatureList(poly, dx, skip) have one entry for every point that has neighbours dx points before and after it (without skip points at both ends) unless these coincide: the exact arc length of the point with the direction from neighbour to neighbour (continuous, up to full turns), or the signed turning angle per mean distance; parameters that are too large or too small are refused.", "quantifier": "every polygon with less than 2^32 points, every dx and skip", "why_tests_cant": "Ranges over all real polygons and parameters; indices are computed in 32 bits with mixed signs.", "anchors": ["src/python_bindings/polygon.cxx: tangentList, curvatureList, ContinuousDirection"]}
{"id": "C74", "title": "Composed tangent lists are continuous", "statement": "composeTangentLists gives the tangents along a sequence of darts: arc lengths are offset by the lengths of the darts before, darts of negative length are traversed backwards with the opposite direction, angles stay the same up to full turns, consecutive angles differ by at most half a turn, and arc lengths ascend.", "quantifier": "every sequence of tangent lists and lengths", "why_tests_cant": "Ranges over all sequences of real angles and lengths; the offset is accumulated over the whole sequence.", "anchors": ["src/python_bindings/polygon.cxx: composeTangentLists, appendTangentList, ContinuousDirection"]}
{"id": "C75", "title": "ParabolaFit is the least squares fit of all points added", "statement": "After any calls of addTangentList, the fitted parabola has the least sum of squared errors over all points added (with continuous angles), sumOfSquaredErrors0 is exactly this sum, and with three different arc lengths the fit is unique.", "quantifier": "every sequence of tangent lists", "why_tests_cant": "Ranges over all data; a wrong sum or coefficient is close to the minimum for typical data.", "anchors": ["src/python_bindings/polygon.cxx: ParabolaFit::addTangentList, ensureFit, sumOfSquaredErrors0"]}
{"id": "C76", "title": "Pixels of a contour image become nodes, edges and regions by their local topology", "statement": "When a pixel based map is made from a binary image, the regions are exactly the background pixels. Pixels where three or more branches or background components meet, ends and isolated pixels become nodes. With nodes at corners, a pixel becomes part of an edge only where exactly two branches and two background components meet. An image is refused only because of pixels that could be removed without changing the topology. The result turns and mirrors with the image. No pixel outside of the image is read.", "quantifier": "every binary image of any size and both kinds of corners", "why_tests_cant": "Ranges over all images and all 256 neighbourhoods of every pixel.", "anchors": ["src/cellimage/cellconfigurations.hxx: cellConfigurations", "src/cellimage/foureightsegmentation.cxx: initCellImage, ChooseCellConfiguration", "src/cellimage/foureightsegmentation.hxx: initGeoMapContourImage"]}
{"id": "C77", "title": "Euler operations of the pixel based map change exactly the pixels of the removed cells", "statement": "If mergeFaces, removeBridge, mergeEdges or removeIsolatedNode returns, exactly the pixels of the cells it removes get a new label, that of the cell it returns; exactly the removed cells stop to exist; the survivor is one of the two cells at the dart; the infinite face is never removed; removeBridge returns only if the same face is on both sides, mergeFaces only if two different faces are, mergeEdges only if exactly two darts of different edges meet at the node.", "quantifier": "every consistent map and every dart (for mergeFaces: every dart that is an end of an edge whose stored ends fit)", "why_tests_cant": "Ranges over all images, all cells of any size and shape and all darts.", "anchors": ["src/cellimage/foureightsegmentation.cxx: removeIsolatedNode, mergeFaces, removeBridge, mergeEdges", "src/cellimage/foureightsegmentation.hxx: CellScanIterator, DartTraverser"]}
{"id": "C78", "title": "Bounds, sizes and counts of the pixel based map are exact after every history", "statement": "After any sequence of mergeFaces, removeBridge, mergeEdges and removeIsolatedNode, every pixel belongs to an existing cell of its type, the stored bounds of each cell are the smallest rectangle around its pixels, the stored sizes are the numbers of pixels, nodeCount, edgeCount and faceCount are the numbers of existing cells, and the frame around the image belongs to face 0.", "quantifier": "every consistent map and every history of calls with valid darts", "why_tests_cant": "Ranges over all histories; bounds are only merged, never computed again, so an error would stay.", "anchors": ["src/cellimage/foureightsegmentation.cxx: removeIsolatedNode, mergeFaces, removeBridge, mergeEdges", "src/cellimage/foureightsegmentation.hxx: CellInfo, FaceInfo"]}
{"id": "C79", "title": "The pixel based map is consistent after construction", "statement": "Whenever the constructor of the pixel based map returns, every pixel belongs to an existing cell, bounds are the smallest rectangles, sizes and counts are exact (also after small holes in nodes were filled), and the frame belongs to face 0.", "quantifier": "every cell image with a frame of face 0 in which every edge label is reached from a node", "why_tests_cant": "Ranges over all cell images and all shapes of cells; the filling of holes changes the image while the lists are made.", "anchors": ["src/cellimage/foureightsegmentation.cxx: GeoMap(const CellImage &), initNodeList, initEdgeList, initFaceList"]}
{"id": "C80", "title": "splitParallelEdges replaces every group of parallel darts by one edge", "statement": "If the planned splits lie inside their edges and are nested on each edge, splitParallelEdges ends normally: every planned split is carried out, the nodes of a group are merged into one, the parallel parts are removed up to one, and the map stays consistent. There are exactly one more node and one more edge per group; old nodes keep their positions; the node of a group is the split node of the edge with the largest preference if preferences are given; around it, the surviving parallel part is followed by the other darts in the order found while sorting. Calls without planned splits or with a wrong number of preferences are refused.", "quantifier": "every consistent uninitialised map with polygons of at least two points, every plan with nested splits, every behaviour of std::sort, all preferences, every callback that does not veto the removal of nodes", "why_tests_cant": "Ranges over all maps, all plans with any number of groups and group sizes, and all orders of equivalent elements after std::sort.", "anchors": ["src/geomap/cppmap.cxx: GeoMap::splitParallelEdges, MergeDart", "src/geomap/cppmap.hxx: GeoMap::splitParallelEdges"]}
{"id": "C81", "title": "The splits planned by sortEdgesEventually fit splitParallelEdges", "statement": "Whenever sortEdgesEventually plans splits, they form groups numbered from 0, stored one after the other; each group has at least two darts of one node that follow each other around it in the sorted map in the order of the stored positions, and every split lies on a segment of its edge. If the nodes have few darts compared with the minimal angle, every planned position is the point of its dart at the stored arc length and the splits of one dart are nested. If, moreover, no split was planned at the end of a dart and splits planned from both ends of an edge do not cross, calling splitParallelEdges afterwards ends normally and replaces every group of parallel darts by one edge.", "quantifier": "every consistent uninitialised map with polygons of at least two points, all step widths and minimal distances, every behaviour of std::sort, all preferences", "why_tests_cant": "Ranges over all maps with any number of darts per node, any depth of nested planning calls and all geometric configurations.", "anchors": ["src/geomap/cppmap.cxx: sortEdgesInternal, GeoMap::sortEdgesEventually, GeoMap::splitParallelEdges", "src/geomap/cppmap.hxx: DartPositionAngle, PlannedSplits"]}
{"id": "C82", "title": "Changing crack edges to midcracks keeps the map consistent", "statement": "crackEdgesToMidcracks ends normally for every consistent map whose edges end at their nodes and have at least two points. Cells, darts, faces, labels and flags stay the same. Every edge becomes the polygon through the midpoints of its segments that starts and ends where it did; the only edge of a node that is a loop becomes the closed polygon through the midpoints and the node moves to its start; no other node moves. Afterwards edges end at their nodes again, area() gives the area of the new contours, darts leave their nodes in the same direction, no polygon leaves a half plane that contained it, and no contour is longer than before. In particular this holds for the map of every label image.", "quantifier": "every consistent map with any number of cells and any coordinates; every label image", "why_tests_cant": "Ranges over all maps, all polygons and all configurations of loops and nodes.", "anchors": ["src/geomap/crackedgemap.cxx: crackEdgesToMidcracks", "src/geomap/cppmap.cxx: GeoMap::Node::setPosition"]}
{"id": "C83", "title": "midcracksToThreshold interpolates the threshold and keeps edges attached", "statement": "midcracksToThreshold moves every midcrack point of an edge that is not marked as border to the place where the linear interpolation of the two neighbouring pixels has the value of the threshold (between the two pixels if the threshold is between their values), changes nothing else, and afterwards edges still end at their nodes and area() gives the area of the new contours.", "quantifier": "every consistent map, image, image size and threshold", "why_tests_cant": "Ranges over all maps, all images and thresholds.", "anchors": ["src/geomap/crackedgemap.hxx: midcracksToThreshold"]}
{"id": "C84", "title": "The border edges of a crack edge map are marked", "statement": "After initializeMap of the generator, an edge has the border flag exactly if it lies on the first contour of the infinite face; no other flag and nothing else in the map changes, and the call ends normally. If that contour is the border of the image, the marked edges are exactly those with the outside of the image on one side. If the infinite face has one contour they are exactly the edges with the infinite face on one side; without a contour the call has undefined behaviour.", "quantifier": "every consistent initialised map; every label image of any size, both connectivities", "why_tests_cant": "Ranges over all maps and all images.", "anchors": ["src/geomap/crackedgemap.cxx: CrackEdgeMapGenerator::initializeMap"]}
{"id": "C85", "title": "contourLength and isoperimetricQuotient walk around the whole contour once", "statement": "For every dart of a consistent map contourLength ends and is the sum of the lengths of the edges over the darts of its contour (an edge passed twice counts twice), the same for all darts of the contour; isoperimetricQuotient is its square divided by 4 pi times contourArea of the dart, with a division by zero exactly if that area is zero.", "quantifier": "every consistent map and dart; any length function for polygons", "why_tests_cant": "Ranges over all maps and contours of any length.", "anchors": ["src/geomap/cppmap.cxx: contourLength, isoperimetricQuotient"]}
{"id": "C86", "title": "nextSigma and prevSigma of the pixel based map are inverse to each other", "statement": "In a cell image made from contour pixels with corner pixels as nodes, nextSigma and prevSigma started at any dart reach a dart of the same node, never leave the image, always end, and undo each other; the start node label stays the same.", "quantifier": "every contour image of any size the constructor accepts; every dart; nodes of any number of pixels and any shape", "why_tests_cant": "Ranges over all images and all shapes of nodes; the walk around a node has no bound.", "anchors": ["src/cellimage/foureightsegmentation.hxx: RayCirculator::nextSigma, prevSigma, tryNext, badDiagonalConfig"]}
{"id": "C87", "title": "nextAlpha of the pixel based map is an involution without fixed points", "statement": "In a cell image made from contour pixels, following an edge with nextAlpha from any dart ends at another dart, never the same one, goes only over neighbouring pixels of edges, and the same call from there leads back to the first dart.", "quantifier": "every contour image of any size the constructor accepts; every dart; edges of any length and shape", "why_tests_cant": "Ranges over all images and all pixel configurations along an edge; the trace has no bound.", "anchors": ["src/cellimage/foureightsegmentation.hxx: EdgelIterator, RayCirculator::nextAlpha"]}
{"id": "C88", "title": "Faces beside the darts of the pixel based map agree", "statement": "Every dart has a face on either side. The face left of a dart is right of the dart at the other end of the edge and right of the next dart around the node; following a contour with nextPhi never changes leftFaceLabel, and nextPhi can be undone, so that contours are cycles.", "quantifier": "every contour image of any size the constructor accepts with corner pixels as nodes, with faces labelled by component; every dart", "why_tests_cant": "Ranges over all images, nodes, edges and contours.", "anchors": ["src/cellimage/foureightsegmentation.hxx: RayCirculator::leftFaceLabel, rightFaceLabel, nextPhi"]}
{"id": "C89", "title": "Resampling with a Gaussian filter", "statement": "For every polygon longer than the filter radius and every positive point distance, resamplePolygonGaussianFilter ends and returns one point more than the smallest number of equal steps of at most this distance. An open polygon keeps its end points; the result for a closed polygon is closed and stays within the convex hull. Polygons that are not longer than the radius are refused.", "quantifier": "every polygon with any number of points, every filter with positive symmetric weights, every positive point distance", "why_tests_cant": "Ranges over all real polygons, filters and distances; the summation loops have no bound of their own.", "anchors": ["src/geomap/polygon.hxx: resamplePolygonGaussianFilter, singleGaussianConvolvePolygonReflective, singleGaussianConvolvePolygonCyclic"]}
{"id": "C90", "title": "Integrals behind the control points of a spline", "statement": "For every polygon and every number of segments, polygonSplineControlPoints divides the polygon into parts of equal length without changing it as a curve, and the right hand side it computes for a control point is the integral of the cubic B-spline around this position times the curve.", "quantifier": "every polygon with at least four points, every number of segments, every inner control point", "why_tests_cant": "Ranges over all real polygons; the closed formulas have to agree with an integral for all segments.", "anchors": ["src/geomap/polygon.hxx: polygonSplineControlPoints, singleSpline3ConvolvePolygon, spline3Integral"]}
{"id": "C91", "title": "Labels of the cells of the pixel based map", "statement": "After the labelling of a classified image, edge labels run from 1 without gaps, two pixels have the same edge label exactly if they are connected along an edge, nodes and faces keep the labels of their components, and a pixel of an edge becomes a node only if the edge does not touch any node.", "quantifier": "every source image of every size that is accepted, every correct labelling of the components of nodes and faces", "why_tests_cant": "Ranges over all images; labels depend on the order in which darts and pixels are visited.", "anchors": ["src/cellimage/foureightsegmentation.cxx: labelEdges, labelFaces, labelSelfLoops, labelEdge", "src/cellimage/foureightsegmentation.hxx: init"]}
{"id": "C92", "title": "The pixel based map after construction from a source image", "statement": "The map constructed from a source image is consistent: every pixel belongs to an existing cell, bounds, sizes and counts are exact, every labelled edge exists, the stored ends of an edge are the two darts found by following its pixels, left and right faces of the two ends are exchanged, the degree of a node is the number of its darts, and the information about pixels stays exact after any history of Euler operations.", "quantifier": "every source image of every size that is accepted, every correct labelling of the components of nodes and faces, every history of operations", "why_tests_cant": "Ranges over all images and histories; every dart of every edge has to be reached by the scans that fill the lists.", "anchors": ["src/cellimage/foureightsegmentation.hxx: init, nextAlpha", "src/cellimage/foureightsegmentation.cxx: initNodeList, initEdgeList, initFaceList"]}
{"id": "C93", "title": "The pixel based map stays navigable and exact through every history", "statement": "After any sequence of removeIsolatedNode, mergeFaces, removeBridge and mergeEdges calls that return, each called with a dart of the map at that time, a map constructed from a source image still is exact: bounds, sizes and counts fit the image; nextAlpha is an involution without fixed points that stays on the edge and exchanges left and right face, and an edge has no third dart; nextSigma permutes the darts of a node in one orbit, prevSigma undoes it, and the face between consecutive darts is the same seen from both; the degree of a node counts its darts.", "quantifier": "every accepted source image of every size without holes in nodes, every correct component labelling, every history of operations of any length", "why_tests_cant": "Ranges over all images and all histories; a wrong stored end or a wrong degree shows up only after later operations.", "anchors": ["src/cellimage/foureightsegmentation.cxx: removeIsolatedNode, mergeFaces, removeBridge, mergeEdges", "src/cellimage/foureightsegmentation.hxx: nextAlpha, nextSigma, prevSigma, leftFaceLabel, rightFaceLabel"]}
{"id": "C94", "title": "A dart recorded in the history comes back as the same dart", "statement": "serialize() followed by the DartTraverser constructor that takes the serialized number yields the same position and direction, so that a recorded operation acts on the dart it was called with, for every dart with fewer than 2^14 columns to its left and rows above it (frame included). Beyond that no number yields the dart and two darts share a number.", "quantifier": "every dart position and direction, every operation of the pyramid, every map", "why_tests_cant": "Ranges over 2^31 serialized darts; images beyond the limit are not part of any test.", "anchors": ["src/cellimage/foureightsegmentation.hxx: DartTraverser::serialize, DartTraverser(GeoMap*, Serialized)", "src/cellimage/cellpyramid.hxx: performOperation"]}
{"id": "C95", "title": "Histories of the pyramid keep the pixel based map exact, and removal of edges leaves no node without edges behind", "statement": "Operations of the pyramid (the four elementary ones, RemoveEdge and RemoveEdgeWithEnds), recorded as serialized darts and performed, keep the map exact in the sense of C93; degrees are the numbers of darts, and the anchor of a node that has darts is one of them. RemoveEdgeWithEnds removes the edge, and each of its end nodes that has no other dart, and no end that has.", "quantifier": "every accepted source image without holes in nodes of at most 16380 columns and rows, every history of recorded operations of any length", "why_tests_cant": "Ranges over all images and all histories; the anchor of a node is only used when its last edge is gone.", "anchors": ["src/cellimage/cellpyramid.hxx: performOperation", "src/cellimage/foureightsegmentation.cxx: removeNodeFromContour, mergeFaces, removeBridge, removeIsolatedNode"]}
{"id": "C96", "title": "Every level of a pyramid over a pixel based map is an exact map", "statement": "A pyramid is built over a map constructed from a source image. After any session of legal calls that return (operations called with darts of the top level, composites, checkpoints, cuts, levels kept and moved), getLevel(i) returns a map for every finished level i, and this map, the top level and every level object the client keeps are exact in the sense of C95, and are reached from the base by operations.", "quantifier": "every accepted source image without holes in nodes of at most 16380 columns and rows, every session of calls of any length, every schedule of checkpoints", "why_tests_cant": "Levels are re-computed from checkpoints by replaying serialized darts; ranges over all sessions, checkpoint schedules and images.", "anchors": ["src/cellimage/cellpyramid.hxx: CellPyramid, Level", "src/cellimage/foureightsegmentation.hxx: DartTraverser::serialize"]}
{"id": "C97", "title": "The statistics of a face are those of its pixels after every history of operations", "statement": "CellStatistics, constructed for a map and told about every Euler operation, keeps for every face the number of its pixels in the base image and the sum and the sum of squares of the values of an image there, whatever operations are performed; constructing and updating it never fails. average and variance of the functor are the mean and the mean squared deviation of the values seen, and remove undoes adding a value.", "quantifier": "every accepted source image without holes in nodes, every image of values in a commutative ring, every history of operations of any length, every face", "why_tests_cant": "Ranges over all images and all histories of merges; errors of single pixels are invisible in averages.", "anchors": ["src/cellimage/cellstatistics.cxx: CellStatistics::CellStatistics", "src/cellimage/cellstatistics.hxx: preRemoveEdge, postRemoveEdge, preRemoveBridge, preMergeFaces, postMergeFaces, preRemoveIsolatedNode", "src/cellimage/statisticfunctor.hxx: StatisticFunctor", "src/cellimage/foureightsegmentation.hxx: cellScanIterator"]}
{"id": "C98", "title": "Protection of an edge follows everything it was merged from", "statement": "CellStatistics remembers which edges were merged. After every history of Euler operations, an edge of the first map belongs to an existing edge with all of its pixels or with none; edgeProtected of an existing edge tells whether one of these parts has a flag; protectEdge gives or takes the flag at all of these parts and nowhere else, and tells whether it changed anything. None of this ever runs forever, reads out of bounds, or fails when the operation succeeds.", "quantifier": "every accepted source image without holes in nodes, every history of operations of any length, every existing edge, all flags of all edges", "why_tests_cant": "Ranges over all sequences of merges: the links form chains whose ends move with each merge, and one wrong link loses a flag or makes the recursion endless.", "anchors": ["src/cellimage/cellstatistics.hxx: EdgeProtection, CellStatistics::protectEdge, edgeProtected, preMergeEdges, postMergeEdges", "src/cellimage/cellstatistics.cxx: CellStatistics::CellStatistics"]}
{"id": "C99", "title": "Statistics of an edge are those of exactly its pixels", "statement": "CellStatistics gives each edge beside the infinite face a marker (the largest value) at first. After every history of Euler operations, the count and sum of the gradients of an edge between two finite faces are those of exactly the pixels of that edge, including the pixels of nodes at which edges were merged, each once. An edge beside the infinite face has the marker or the values of its pixels. The notifications never fail when the operation succeeds.", "quantifier": "every accepted source image without holes in nodes, every gradient image, every history of operations of any length, every existing edge", "why_tests_cant": "Ranges over all sequences of merges: an edge counted twice, a forgotten node or a marker mixed with values shows only after particular orders of merges.", "anchors": ["src/cellimage/cellstatistics.hxx: CellStatistics::preMergeEdges, postMergeEdges, edgeStatistics_", "src/cellimage/cellstatistics.cxx: CellStatistics::CellStatistics"]}
{"id": "C100", "title": "The rectangle of last changes contains every pixel that changed", "statement": "After clearLastChanges and any number of Euler operations, every pixel that belongs to another cell than at the time of the call lies in lastChanges(). What was in the rectangle stays in it until it is cleared. After a single operation it is the smallest rectangle around the cell that is left, and the notifications never fail when the operation succeeds.", "quantifier": "every accepted source image without holes in nodes, every history of operations of any length before and after clearLastChanges, every rectangle, every pixel", "why_tests_cant": "Ranges over all maps and all sequences of operations: one stale bounding box leaves pixels of a viewer that are never redrawn.", "anchors": ["src/cellimage/cellstatistics.hxx: CellStatistics::lastChanges, clearLastChanges, postRemoveIsolatedNode, postRemoveEdge, postMergeEdges"]}
{"id": "C101", "title": "Automatic protection marks exactly the edges with enough edgels", "statement": "After every history of Euler operations, initAutoProtection returns; for each existing edge, the flag EPCanny at everything the edge was merged from tells whether enough of the pixels of the whole edge in the base image are edgels. All other flags, and the flags of edges that do not exist any more, stay as they were. The returned rectangle contains every pixel of every edge of which a flag changed.", "quantifier": "every accepted source image without holes in nodes, every history of operations of any length, every image of edgels, all flags of all edges, every threshold", "why_tests_cant": "Ranges over all histories of merges and all flags: an edge judged by one of its parts, or two edges that share a part, show only after particular merges.", "anchors": ["src/cellimage/cellstatistics.hxx: CellStatistics::initAutoProtection, protectEdge, CountEdgels"]}
{"id": "C102", "title": "Automatic protection stays right while edges are merged", "statement": "With doAutoProtection, after a call of initAutoProtection at any time and any number of Euler operations after it, the flag EPCanny at everything an existing edge was merged from tells whether enough of the pixels this edge has now are edgels, and the notifications never fail when the operation succeeds.", "quantifier": "every accepted source image without holes in nodes, every history of operations before and after the call, every image of edgels, every threshold, every existing edge", "why_tests_cant": "Ranges over all histories of merges: each merge has to update all parts of the new edge and no part of another one.", "anchors": ["src/cellimage/cellstatistics.hxx: CellStatistics::postMergeEdges, initAutoProtection, protectEdge"]}

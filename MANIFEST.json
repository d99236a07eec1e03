{
 "claims": [
  {
   "property": "C01",
   "status": "proved",
   "theorems": [
    "Verif.LabelLUT.lut_lookup_is_class_representative",
    "Verif.LabelLUT.relabel_effect"
   ],
   "note": "Lookup after any history of relabel calls is the representative of the merge class (refinement of a partition)."
  },
  {
   "property": "C02",
   "status": "proved",
   "theorems": [
    "Verif.LabelLUT.merged_iteration_exact"
   ],
   "note": "The circular list of a label enumerates exactly its merge class, each label once."
  },
  {
   "property": "C03",
   "status": "proved",
   "theorems": [
    "Verif.Iter.Props.iteration_exact",
    "Verif.Iter.Props.iteration_with_removal",
    "Verif.Iter.Props.iteration_safe",
    "Verif.Iter.Props.map_iteration",
    "Verif.Iter.Props.finite_faces",
    "Verif.Iter.Props.finite_faces_uninitialized"
   ],
   "note": "Also loops whose body removes cells. finiteFacesBegin() on a map without faces increments the end iterator (shown)."
  },
  {
   "property": "C04",
   "status": "proved",
   "theorems": [
    "Verif.GeoMap.Props.dart_navigation",
    "Verif.GeoMap.Props.dart_orbits_return"
   ],
   "note": "For every map reachable by any history of modelled calls (Reach)."
  },
  {
   "property": "C05",
   "status": "proved",
   "theorems": [
    "Verif.GeoMap.Props.sigma_orbit_is_star",
    "Verif.GeoMap.Props.isolated_iff_no_darts",
    "Verif.GeoMap.Props.mem_star",
    "Verif.GeoMap.Props.degree_counts_darts"
   ],
   "note": "For every reachable map."
  },
  {
   "property": "C06",
   "status": "proved",
   "theorems": [
    "Verif.GeoMap.Props.contours_exact",
    "Verif.GeoMap.Props.anchors_valid"
   ],
   "note": "For every reachable initialized map; planarity of the drawing is assumed when initializeMap is called."
  },
  {
   "property": "C07",
   "status": "proved",
   "theorems": [
    "Verif.GeoMap.Props.counts_exact",
    "Verif.GeoMap.Props.count_changes",
    "Verif.GeoMap.Props.labels_never_reused",
    "Verif.GeoMap.Props.new_labels_fresh"
   ],
   "note": "Counts, per-operation changes and labels along arbitrary further histories (Later)."
  },
  {
   "property": "C08",
   "status": "proved",
   "theorems": [
    "Verif.GeoMap.Props.euler_preserved",
    "Verif.GeoMap.Props.euler_formula",
    "Verif.GeoMap.Props.contour_formula",
    "Verif.GeoMap.Props.faces_joined",
    "Verif.GeoMap.Props.finite_face_has_contour",
    "Verif.GeoMap.Props.no_loop_bridge"
   ],
   "note": "The value follows from the counts of permutation cycles (genus 0 because the drawing is planar) together with the sign of contour areas right after initializeMap; then it is preserved."
  },
  {
   "property": "C09",
   "status": "proved",
   "theorems": [
    "Verif.GeoMap.Props.veto_removeIsolatedNode",
    "Verif.GeoMap.Props.veto_removeBridge",
    "Verif.GeoMap.Props.veto_mergeFaces",
    "Verif.GeoMap.Props.veto_mergeEdges"
   ],
   "note": "mergeFaces may fill the area cache with the right value; mergeEdges may represent a contour by another of its darts."
  },
  {
   "property": "C10",
   "status": "proved",
   "theorems": [
    "Verif.GeoMap.Props.ask_protocol",
    "Verif.GeoMap.Props.removeIsolatedNode_protocol",
    "Verif.GeoMap.Props.mergeEdges_protocol",
    "Verif.GeoMap.Props.removeBridge_protocol",
    "Verif.GeoMap.Props.mergeFaces_protocol",
    "Verif.GeoMap.Props.splitEdge_protocol",
    "Verif.GeoMap.Props.logged_operations",
    "Verif.GeoMap.Props.no_slots_proceed",
    "Verif.GeoMap.Props.notify_protocol"
   ],
   "note": "The logged versions record every slot call; logged_operations shows they are the operations used everywhere else. mergeEdges and mergeFaces show the slots a map with the same nodes, edges and sigma, in which areas may have been cached or contour anchors moved. Slots are functions of the map and the cell; slots that change the map are not modelled."
  },
  {
   "property": "C11",
   "status": "proved",
   "theorems": [
    "Verif.GeoMap.Props.mergeEdges_undoes_splitEdge"
   ],
   "note": "All callbacks agreeing."
  },
  {
   "property": "C12",
   "status": "proved",
   "theorems": [
    "Verif.GeoMap.Props.mergeEdges_local",
    "Verif.GeoMap.Props.splitEdge_local",
    "Verif.GeoMap.Props.removeBridge_local",
    "Verif.GeoMap.Props.mergeFaces_local"
   ],
   "note": "Effect structures in Verif/GeoMap/Effects.lean list what changes and what stays."
  },
  {
   "property": "C13",
   "status": "proved",
   "theorems": [
    "Verif.GeoMap.Props.area_is_sum_of_contours",
    "Verif.GeoMap.Props.mergeFaces_adds_areas",
    "Verif.GeoMap.Props.removeBridge_keeps_areas",
    "Verif.GeoMap.Props.mergeEdges_keeps_areas",
    "Verif.GeoMap.Props.splitEdge_keeps_areas",
    "Verif.GeoMap.Props.areas_sum_to_zero"
   ],
   "note": "Exact arithmetic over an ordered field; inserted split points must lie on the split segment (otherwise areas do change)."
  },
  {
   "property": "C14",
   "status": "partial",
   "theorems": [
    "Verif.GeoMap.Props.first_contour_is_outer_partial",
    "Verif.Outer.first_contour_history_partial",
    "Verif.Outer.first_contour_exact",
    "Verif.GeoMap.Props.first_contour_is_outer_violated"
   ],
   "note": "False of the code as stated: after mergeFaces the first contour may be the boundary of a hole (first_contour_is_outer_violated). Proved: it holds after initializeMap and after every history in which mergings of faces meet KeepsOuter (first_contour_history_partial); this condition is exact: from a state with outer contours first, a call leads to such a state if and only if it meets it (first_contour_exact)."
  },
  {
   "property": "C15",
   "status": "partial",
   "theorems": [
    "Verif.Locate.labelImage_located",
    "Verif.Locate.labelImage_point",
    "Verif.Locate.scanLines_fill",
    "Verif.LabelImage.labelImage_meaning",
    "Verif.LabelImage.removeBridge_pixels",
    "Verif.LabelImage.mergeFaces_pixels",
    "Verif.LabelImage.mergeEdges_pixels",
    "Verif.LabelImage.splitEdge_pixels",
    "Verif.LabelImage.vetoed_pixels",
    "Verif.LabelImage.labelImage_transparent",
    "Verif.LabelImage.labelImage_stale_violated",
    "Verif.LabelImage.labelImage_nested_violated"
   ],
   "note": "Proved for every history of calls after the label image is switched on: crossed pixels hold minus the number of edges, all others an existing face; each removal reports the freed pixels exactly once and gives them to the surviving face. If the labels were nested (a face inside another one has the greater label, first contours are outer ones) and the faces partitioned the plane when the image was switched on, then at any later time the face shown is the one the pixel lies in (labelImage_located, labelImage_point). The unconditional claim is false of the code: painting in label order gives a nested face with a smaller label to its surrounding face (labelImage_nested_violated), and re-enabling after a split without label image fails (labelImage_stale_violated)."
  },
  {
   "property": "C16",
   "status": "proved",
   "theorems": [
    "Verif.LabelImage.pixelArea_counts",
    "Verif.LabelImage.pixelArea_reswitch_violated",
    "Verif.LabelImage.splitEdge_off_violated"
   ],
   "note": "For every history of calls after the label image is switched on once, with split points on the edge. Both restrictions are necessary: switching off and on again doubles pixelArea of face 0 (pixelArea_reswitch_violated), and splitting at a point off the edge leaves a wrong pixelArea (splitEdge_off_violated)."
  },
  {
   "property": "C17",
   "status": "proved",
   "theorems": [
    "Verif.LabelImage.mergeFaces_pixels",
    "Verif.LabelImage.labelImage_transparent"
   ],
   "note": "Full statement for every reachable labelled map, including chains of merges."
  },
  {
   "property": "C18",
   "status": "partial",
   "theorems": [
    "Verif.GeoMap.Props.changeFaceLabels_throws",
    "Verif.GeoMap.Props.changeFaceLabels_renames",
    "Verif.GeoMap.Props.changeFaceLabels_reach",
    "Verif.LabelImage.changeFaceLabels_pixels",
    "Verif.LabelImage.changeFaceLabels_refused",
    "Verif.GeoMap.Props.changeFaceLabels_atomic_violated",
    "Verif.GeoMap.Props.changeFaceLabels_zero_violated"
   ],
   "note": "A successful call renames faces, left faces of darts and pixels by the same map, and all invariants continue to hold (Reach, ReachG and LReach histories include it); it throws exactly in the documented cases. The second half of the property is false of the code: a refused call leaves the labels that already processed faces report about themselves (changeFaceLabels_atomic_violated); everything else is unchanged (changeFaceLabels_refused). changeFaceLabels_zero_violated: the infinite face can lose label 0."
  },
  {
   "property": "C19",
   "status": "proved",
   "theorems": [
    "Verif.Copy.copy_equal",
    "Verif.Copy.copy_independent",
    "Verif.Copy.copy_refuses",
    "Verif.Copy.copy_nearest",
    "Verif.Copy.copy_clash_violated",
    "Verif.Copy.copy_scan",
    "Verif.Copy.copy_scanOwned"
   ],
   "note": "Heap model with cells, darts, arrays and label image as objects. Operations are arbitrary sequences of writes through the members of a map; signals, splitInfo_ and edgePreferences_ are not copied by the code. nearestNode of the copy finds a nearest node but may break ties differently. copy_clash_violated: after a refused changeFaceLabels the copy lacks a face."
  },
  {
   "property": "C20",
   "status": "proved",
   "theorems": [
    "Verif.GeoMap.Props.protected_stays_drawn",
    "Verif.GeoMap.Props.protected_bits_stay_drawn",
    "Verif.GeoMap.Props.composed_hist",
    "Verif.GeoMap.Props.protected_not_removed",
    "Verif.GeoMap.Props.different_flags_not_joined",
    "Verif.GeoMap.Props.removeEdges_protected_flags_violated",
    "Verif.GeoMap.Props.removeEdge_uninitialized_violated"
   ],
   "note": "The two theorems ending in _violated show that the restrictions are needed: removeEdges leaves REMOVE_BRIDGE set on protected bridges, and removeEdge on an uninitialized map asks no callbacks."
  },
  {
   "property": "C21",
   "status": "proved",
   "theorems": [
    "Verif.GeoMap.Props.removeIsolatedNodes_spec",
    "Verif.GeoMap.Props.removeIsolatedNodes_all",
    "Verif.GeoMap.Props.mergeDegree2Nodes_spec",
    "Verif.GeoMap.Props.mergeDegree2Nodes_all"
   ],
   "note": "For every reachable map and all callbacks."
  },
  {
   "property": "C22",
   "status": "proved",
   "theorems": [
    "Verif.GeoMap.Props.removeBridges_spec",
    "Verif.GeoMap.Props.removeAllBridges_spec",
    "Verif.GeoMap.Props.removeEdges_spec",
    "Verif.GeoMap.Props.removeEdges_all"
   ],
   "note": "For every reachable initialized map, any callbacks, any list of distinct existing labels; edges carrying REMOVE_BRIDGE from an earlier call may be removed, too, and the internal flag 0x80000 must not be set."
  },
  {
   "property": "C23",
   "status": "proved",
   "theorems": [
    "Verif.GeoMap.Props.common_edges_on_contour",
    "Verif.GeoMap.Props.mergeFacesCompletely_spec",
    "Verif.GeoMap.Props.mergeFacesCompletely_all"
   ],
   "note": "All edges between the two faces lie on the contour of the dart (planarity), so all of them are removed."
  },
  {
   "property": "C24",
   "status": "partial",
   "theorems": [
    "Verif.Sigma.storage_safe",
    "Verif.Sigma.growth_preserves",
    "Verif.Sigma.storage_step",
    "Verif.Sigma.map_storage",
    "Verif.Sigma.setMapping_effect_partial",
    "Verif.Sigma.setMapping_unchecked_violated",
    "Verif.Sigma.resize_other_sizes_violated"
   ],
   "note": "addEdge/splitEdge/mergeEdges/removals/sorting: proved safe for every history, with exact refinement of the mappings. setSigmaMapping: proved safe when the given entries are labels of the map; the code does not check them and then writes out of bounds (setMapping_unchecked_violated)."
  },
  {
   "property": "C25",
   "status": "proved",
   "theorems": [
    "Verif.GeoMap.Props.sigma_orbit_is_star",
    "Verif.GeoMap.Props.isolated_iff_no_darts",
    "Verif.GeoMap.Props.counts_exact",
    "Verif.GeoMap.Props.dart_orbits_return"
   ],
   "note": "The theorems hold for every reachable map, in particular before initialization."
  },
  {
   "property": "C26",
   "status": "proved",
   "theorems": [
    "Verif.GeoMap.Props.angleTheta_orders_by_angle",
    "Verif.GeoMap.Props.angleTheta_eq_iff",
    "Verif.GeoMap.Props.sortEdgesDirectly_sorts",
    "Verif.GeoMap.Props.sortEdgesDirectly_rejects"
   ],
   "note": "Over the real numbers, with Complex.arg as the mathematical angle."
  },
  {
   "property": "C27",
   "status": "proved",
   "theorems": [
    "Verif.GeoMap.Props.initializeMap_assigns_all_darts"
   ],
   "note": "For every outcome of the geometric search (parameter pick)."
  },
  {
   "property": "C28",
   "status": "proved",
   "theorems": [
    "Verif.NodeIndex.nearestNode_nearest",
    "Verif.NodeIndex.nearest_spec",
    "Verif.NodeIndex.coincident_violated"
   ],
   "note": "Over an ordered field. coincident_violated shows that the restriction to distinct positions is needed: the removal of a node takes the first node at that position out of the index."
  },
  {
   "property": "C29",
   "status": "partial",
   "theorems": [
    "Verif.Polygon.Props.length_exact",
    "Verif.Polygon.Props.length_exact_violated",
    "Verif.Polygon.Props.area_exact_partial",
    "Verif.Polygon.Props.area_after_push_back",
    "Verif.Polygon.Props.area_exact_violated"
   ],
   "note": "length() is proved exact for all histories without clear() (with clear() it is false: witness). partialArea() is false in general: push_back and a gap in extend add the triangle of the new segment twice (exact error proved, witness); proved for all histories in which these calls are made only while the area is not cached (or with vanishing triangle)."
  },
  {
   "property": "C30",
   "status": "proved",
   "theorems": [
    "Verif.Polygon.Props.reverse_area",
    "Verif.Polygon.Props.reverse_length",
    "Verif.Polygon.Props.split_adds",
    "Verif.Polygon.Props.split_total",
    "Verif.Polygon.Props.extend_adds",
    "Verif.Polygon.Props.concatenate_exact",
    "Verif.Polygon.Props.area_translate",
    "Verif.Polygon.Props.area_start"
   ],
   "note": "Over any field; also independence of the area of a closed polygon from origin and starting point."
  },
  {
   "property": "C31",
   "status": "partial",
   "theorems": [
    "Verif.Polygon.Props.bbox_exact_partial",
    "Verif.Polygon.Props.bbox_setPoint",
    "Verif.Polygon.Props.bbox_violated",
    "Verif.Polygon.Props.bbox_unique"
   ],
   "note": "False in general: setPoint does not grow the cached box (exact condition proved in bbox_setPoint, witness). Proved for all histories in which setPoint moves points to places inside the box."
  },
  {
   "property": "C32",
   "status": "proved",
   "theorems": [
    "Verif.Polygon.Props.contains_parity",
    "Verif.Polygon.Props.contains_defined",
    "Verif.Polygon.Props.contains_reverse",
    "Verif.Polygon.Props.contains_start",
    "Verif.Polygon.Props.contains_merge",
    "Verif.Polygon.Props.contains_bbox"
   ],
   "note": "contains = parity of the segments crossing the ray to the left (geometric specification); independent of orientation and start; additive (xor) when two polygons are merged along a common boundary; equal to the bounding-box variant."
  },
  {
   "property": "C33",
   "status": "proved",
   "theorems": [
    "Verif.Simplify.simplifyPolygon_simplifies",
    "Verif.Simplify.simplifies_sublist",
    "Verif.Simplify.simplify_short_violated"
   ],
   "note": "Over an ordered field with an exact square root. simplify_short_violated shows that the restriction to two points is needed."
  },
  {
   "property": "C34",
   "status": "partial",
   "theorems": [
    "Verif.Hull.Props.convexHull_correct_partial",
    "Verif.Hull.Props.convexHull_correct_general_position",
    "Verif.Hull.Props.convexHull_safe",
    "Verif.Hull.Props.convexHull_precond",
    "Verif.Hull.Props.convexHull_correct_violated",
    "Verif.Hull.Props.ccwCompare_duplicate_violated"
   ],
   "note": "The unconditional claim is false: with three points on one ray from the extremal point (far, near, farther in this order) the farthest is dropped although outside (convexHull_correct_violated), and with two copies of the extremal point the comparison given to std::sort is not a strict weak ordering. Proved whenever the extremal point is given once and points on a common ray are sorted by distance, in particular if no two other points share a ray."
  },
  {
   "property": "C35",
   "status": "proved",
   "theorems": [
    "Verif.Scan.normalize_covers",
    "Verif.Scan.normalize_disjoint",
    "Verif.Scan.normalize_directions",
    "Verif.Scan.normalize_any_sort",
    "Verif.Scan.reverse_directions",
    "Verif.Scan.merge_unites",
    "Verif.Scan.add_unites",
    "Verif.Scan.fill_interior",
    "Verif.Scan.draw_passes"
   ],
   "note": "Any result of std::sort is covered by normalize_any_sort."
  },
  {
   "property": "C36",
   "status": "proved",
   "theorems": [
    "Verif.Crack.Props.crackConnectionImage_marks_changes",
    "Verif.Crack.Props.crackConnectionImage_empty",
    "Verif.Crack.Props.makeCCSymmetric_marks_changes",
    "Verif.Crack.Props.crack_symmetric",
    "Verif.Crack.Props.crackCount_ne_one",
    "Verif.Crack.Props.crack_inside"
   ],
   "note": "The empty image is out of bounds access in the code (crackConnectionImage_empty)."
  },
  {
   "property": "C37",
   "status": "proved",
   "theorems": [
    "Verif.Crack.Props.crackEdgeMap_covers",
    "Verif.Crack.Props.crackEdgeMap_empty",
    "Verif.Crack.Props.crackMap_separates",
    "Verif.Crack.Props.crackEdgeMap_edges_disjoint",
    "Verif.Crack.Props.crackEdgeMap_initializes",
    "Verif.Crack.Props.crackEdgeMap_contour_label",
    "Verif.Crack.Props.crackEdgeMap_one_border"
   ],
   "note": "The search for enclosing faces is a parameter (pick); the flag BORDER_PROTECTION set afterwards and the assertion that face 0 has one contour are not modelled."
  },
  {
   "property": "C38",
   "status": "proved",
   "theorems": [
    "Verif.Pyramid.getLevel_replays",
    "Verif.Pyramid.levelCount_log",
    "Verif.Pyramid.topLevel_is_last",
    "Verif.Pyramid.getLevel_open",
    "Verif.Pyramid.gotoLevel_like_getLevel",
    "Verif.Pyramid.approachLevel_on_the_way",
    "Verif.Pyramid.cut_keeps_lower_levels",
    "Verif.Pyramid.legal_calls_safe"
   ],
   "note": "For every sequence of legal calls that return normally (Spec.lean: no empty composites, kept levels dropped when cut, topLevel() not moved, no changeIntoComposite outside a composite); outside these the property fails: Verif.Pyramid.moved_top_violated, stale_level_violated, composite_checkpoint_violated, empty_composite_level_violated."
  },
  {
   "property": "C39",
   "status": "partial",
   "theorems": [
    "Verif.Pyramid.failing_inside_composite_partial",
    "Verif.Pyramid.failing_operation_violated",
    "Verif.Pyramid.changeIntoComposite_violated",
    "Verif.Pyramid.empty_composite_violated",
    "Verif.Pyramid.level_after_failure_violated",
    "Verif.Pyramid.composite_failure_violated",
    "Verif.Pyramid.empty_composite_level_violated",
    "Verif.Pyramid.composite_checkpoint_violated"
   ],
   "note": "The code violates the property: a failing operation outside a composite always leaves the failed operation in the history, and changeIntoComposite always makes the index levelCount(). Only a failure inside a composite whose operation changed nothing is harmless."
  },
  {
   "property": "C40",
   "status": "proved",
   "theorems": [
    "Verif.CellImage.Props.cellPixel_roundtrip",
    "Verif.CellImage.Props.cellPixel_label_limit",
    "Verif.CellImage.Props.cellPixel_combined",
    "Verif.CellImage.Props.cellPixel_setters",
    "Verif.CellImage.Props.cellPixel_eq",
    "Verif.CellImage.Props.cellPixel_serialize",
    "Verif.CellImage.Props.dart_roundtrip",
    "Verif.CellImage.Props.dart_roundtrip_iff",
    "Verif.CellImage.Props.dart_injective"
   ],
   "note": "Exact limits included: labels are reduced modulo 2^30, darts beyond 2^14 never round-trip, the combined enum values are not storable."
  },
  {
   "property": "C41",
   "status": "proved",
   "theorems": [
    "Verif.Iter.Props.labelScan_exact",
    "Verif.Iter.Props.raster_spec",
    "Verif.Iter.Props.imageFilter_exact",
    "Verif.Iter.Props.imageFilter_degenerate"
   ],
   "note": "LabelScanIterator for all rectangles incl. degenerate ones; ImageFilterIterator for nonempty rectangles (for an empty rectangle with upperLeft != lowerRight it reads outside: proved)."
  },
  {
   "property": "C42",
   "status": "proved",
   "theorems": [
    "Verif.DSL.Props.mirrorX_points",
    "Verif.DSL.Props.mirrorXY_points",
    "Verif.DSL.Props.mirrorY_points",
    "Verif.DSL.Props.mirror_involutive",
    "Verif.DSL.Props.convert_points",
    "Verif.DSL.Props.leaning_lines",
    "Verif.DSL.Props.center_line",
    "Verif.DSL.Props.addPoint_sound",
    "Verif.DSL.Props.addPoint_extends",
    "Verif.DSL.Props.tangent_contains",
    "Verif.DSL.Props.tangent_defined",
    "Verif.DSL.Props.tangent_assert_violated",
    "Verif.DSL.Props.tangent_closed_violated",
    "Verif.DSL.Props.addPoint_degenerate_violated"
   ],
   "note": "Integers are unbounded (no int overflow). tangentDSL is covered beyond the stated property: its result contains the whole chain within the returned distance. Two defects are proved: the inverted assertion and the endless loop on a closed two-code chain."
  },
  {
   "property": "C43",
   "status": "proved",
   "theorems": [
    "Verif.FaceStats.statistics_recomputed",
    "Verif.FaceStats.statistics_unmarked",
    "Verif.FaceStats.statistics_faces",
    "Verif.FaceStats.statistics_pixelCount",
    "Verif.FaceStats.construct_total",
    "Verif.FaceStats.statistics_transparent",
    "Verif.FaceStats.statistics_rename_violated"
   ],
   "note": "Statistics created for any map with label image, then any history of calls and vetoes. Without supersampling every face's samples are exactly the values of its pixels; with supersampling this holds for unmarked faces if bounding boxes contain their faces' pixels. The debug postconditions never fail. changeFaceLabels is excluded: statistics_rename_violated shows that it is not propagated. The accumulator (vigra, outside the repository) is modelled as the multiset of samples."
  },
  {
   "property": "C44",
   "status": "partial",
   "theorems": [
    "Verif.FaceStats.superSampledCount_partial",
    "Verif.FaceStats.statistics_transparent_partial",
    "Verif.FaceStats.supersampled_crash",
    "Verif.FaceStats.statistics_checkConsistency_partial",
    "Verif.FaceStats.supersampled_table_violated",
    "Verif.FaceStats.supersampled_release_violated",
    "Verif.FaceStats.construct_samples"
   ],
   "note": "The count always equals the number of marked faces. The other two clauses are false of the code: the exact condition under which a merge dereferences the released table is proved (supersampled_crash, statistics_transparent_partial), with a witness, and so is the case in which the table outlives the last mark."
  },
  {
   "property": "C45",
   "status": "proved",
   "theorems": [
    "Verif.PointIter.dart_points",
    "Verif.PointIter.dart_reverse",
    "Verif.PointIter.contour_points",
    "Verif.PointIter.contour_closed",
    "Verif.PointIter.contourPoly_points",
    "Verif.PointIter.contour_points_violated"
   ],
   "note": "Every reachable map. The contour iterator needs at least two points per edge, as its comment says; nothing enforces that, and contour_points_violated shows a contour that ends early at an edge with a single point."
  },
  {
   "property": "C46",
   "status": "proved",
   "theorems": [
    "Verif.Polygon.Props.concatenate_exact"
   ],
   "note": "All four cases: segment lists, point count, end points, length and area."
  },
  {
   "property": "C47",
   "status": "proved",
   "theorems": [
    "Verif.SetPosition.setPosition_moved",
    "Verif.SetPosition.Moved.dart_start",
    "Verif.SetPosition.setPosition_attached",
    "Verif.SetPosition.setPosition_dead",
    "Verif.SetPosition.setPosition_area_violated"
   ],
   "note": "For every consistent map and node. setPosition_attached needs edges of at least two points. setPosition_area_violated: the areas of the faces around the node are not invalidated."
  },
  {
   "property": "C48",
   "status": "proved",
   "theorems": [
    "Verif.Oversampling.Props.line_exact",
    "Verif.Oversampling.Props.line_precondition",
    "Verif.Oversampling.Props.reflect_mirror",
    "Verif.Oversampling.Props.line_constant",
    "Verif.Oversampling.Props.smooth_kernels",
    "Verif.Oversampling.Props.smooth_scale_zero",
    "Verif.Oversampling.Props.derivative_kernels",
    "Verif.Oversampling.Props.derivative_kernels_scale_zero",
    "Verif.Oversampling.Props.image_constant"
   ],
   "note": "Exact field arithmetic instead of floating point; exp is an arbitrary positive function."
  },
  {
   "property": "C49",
   "status": "proved",
   "theorems": [
    "Verif.GeoMap.Props.calls_are_safe",
    "Verif.GeoMap.Props.degree_queries_are_safe"
   ],
   "note": ""
  },
  {
   "property": "C50",
   "status": "proved",
   "theorems": [
    "Verif.GeoMap.AreaOrder.absAreaLess_strictWeak",
    "Verif.GeoMap.AreaOrder.sorted_order",
    "Verif.GeoMap.AreaOrder.embed_sorted"
   ],
   "note": "Exact arithmetic (ordered field); with floating point rounding the threshold comparison could still misbehave."
  },
  {
   "property": "C51",
   "status": "proved",
   "theorems": [
    "Verif.Sigma.sigmaMapping_roundtrip",
    "Verif.Sigma.setMapping_effect_partial"
   ],
   "note": ""
  },
  {
   "property": "C52",
   "status": "partial",
   "theorems": [
    "Verif.GeoMap.Props.removeEdges_safe_partial",
    "Verif.GeoMap.Props.removeEdges_duplicates_violated",
    "Verif.GeoMap.Props.removeEdges_flag_violated"
   ],
   "note": "Violated by the code: a repeated bridge label or the flag bit 0x80000 leads to front() of an empty list. Proved for distinct labels without that flag."
  },
  {
   "property": "C53",
   "status": "proved",
   "theorems": [
    "Verif.Scan.scan_covers",
    "Verif.Scan.scan_out_of_range",
    "Verif.Scan.scan_disjoint",
    "Verif.Scan.scanBox_covers"
   ],
   "note": "double is an ordered field with floor: rounding errors of the intersection are not modelled."
  },
  {
   "property": "C54",
   "status": "proved",
   "theorems": [
    "Verif.Scan.fill_interior",
    "Verif.Scan.fillBox_interior",
    "Verif.Scan.draw_passes",
    "Verif.Scan.winding_odd_iff_contains",
    "Verif.Scan.winding_reverse"
   ],
   "note": "Coordinates exact."
  },
  {
   "property": "C55",
   "status": "partial",
   "theorems": [
    "Verif.Scan.iter_visits",
    "Verif.Scan.iter_passes",
    "Verif.Scan.iter_empty_violated"
   ],
   "note": "The unconditional claim is false: iterating over scanlines without segments reads out of bounds (iter_empty_violated, proved)."
  },
  {
   "property": "C56",
   "status": "proved",
   "theorems": [
    "Verif.Crack.Props.getSourceLabels_correct",
    "Verif.Crack.Props.getSourceLabels_precond"
   ],
   "note": "For maps made by the crack edge map generator and not changed since."
  },
  {
   "property": "C57",
   "status": "proved",
   "theorems": [
    "Verif.Locate.faces_partition",
    "Verif.Locate.edge_borders",
    "Verif.Locate.call_keeps_face",
    "Verif.Locate.mergeFaces_points",
    "Verif.Locate.removeBridge_points",
    "Verif.Locate.keeps_points",
    "Verif.Locate.changeFaceLabels_points",
    "Verif.Locate.pair_subdivision"
   ],
   "note": "Locate/Spec.lean defines lying in a face by winding numbers of the contours, independent of the code. That the drawing is a subdivision when the faces are created is the assumption on the input (shown for a concrete drawing with a nested contour); it is proved to be preserved by all operations."
  },
  {
   "property": "C58",
   "status": "partial",
   "theorems": [
    "Verif.Query.contains_exact",
    "Verif.Query.faceAt_exact",
    "Verif.Query.faceAt_image",
    "Verif.Query.boundingBox_encloses",
    "Verif.Query.boundingBox_cached",
    "Verif.Query.query_precond",
    "Verif.Query.boxes_transparent",
    "Verif.Query.faceAt_violated",
    "Verif.Query.nested_subdivision",
    "Verif.Query.nested_oriented",
    "Verif.Outer.faceAt_history"
   ],
   "note": "Proved whenever the first contour of every finite face is its outer contour at the time of the query (Query/Spec.lean, Oriented; for pixels with a positive label in the label image without this condition). By C14 this condition holds after every history whose mergings of faces meet KeepsOuter (Outer.faceAt_history). The unconditional claim is false of the code: faceAt_violated gives a history in which mergeFaces makes the boundary of a hole the first contour of the merged face, after which faceAt returns the infinite face for a point of the merged face. Points on edges are excluded. Boxes of edges are taken to be exact (C31 covers where the cached ones are not)."
  },
  {
   "property": "C59",
   "status": "proved",
   "theorems": [
    "Verif.Check.Props.check_iff",
    "Verif.Check.Props.check_map",
    "Verif.Check.Props.check_fresh",
    "Verif.Check.Props.nested_passes",
    "Verif.Check.Props.check_after_mergeFaces_violated",
    "Verif.Check.Props.check_after_splitEdge_violated",
    "Verif.Check.Props.check_detects"
   ],
   "note": "Exact characterisation. The two _violated theorems are findings: mergeFaces and splitEdge (at the first point of an edge) turn a map that passes into one that fails, without being refused."
  },
  {
   "property": "C60",
   "status": "proved",
   "theorems": [
    "Verif.EdgeCache.edge_geometry_exact",
    "Verif.EdgeCache.caches_invisible",
    "Verif.EdgeCache.exists_history",
    "Verif.EdgeCache.mergeEdges_adds_lengths",
    "Verif.EdgeCache.splitEdge_divides",
    "Verif.EdgeCache.setPosition_geometry_violated"
   ],
   "note": "Exact arithmetic; dist is any symmetric function (the code uses the Euclidean distance). setPosition_geometry_violated is a finding: moving a node leaves length, area and box of its edges stale."
  },
  {
   "property": "C61",
   "status": "partial",
   "theorems": [
    "Verif.Pickle.graph_roundtrip",
    "Verif.Pickle.map_roundtrip_partial",
    "Verif.Pickle.exists_finds",
    "Verif.Pickle.pickle_empty_violated",
    "Verif.Pickle.thin_face_violated"
   ],
   "note": "Full for maps without faces. For initialised maps it needs that faces are regions with holes (each hole smaller than the outer contour by at least 0.01, at least one edge) and that the geometric search of initializeMap (a parameter) is right; exists_finds shows a right search exists. Without the first hypothesis the claim is false: pickle_empty_violated, thin_face_violated (for every search). The four highest bits of face flags and labels of removed nodes and edges above all existing ones are not restored."
  },
  {
   "property": "C62",
   "status": "proved",
   "theorems": [
    "Verif.Outer.one_outer_contour",
    "Verif.Outer.infinite_face_holes"
   ],
   "note": "For every Drawn map (Locate/Spec.lean): the faces formed a subdivision of the plane at some time, then any history of calls and renamings."
  },
  {
   "property": "C63",
   "status": "proved",
   "theorems": [
    "Verif.Refuse.refused_iff",
    "Verif.Refuse.accepted_iff",
    "Verif.Refuse.bridge_or_merge"
   ],
   "note": "Legal arguments (Op.legal): nodes given to addEdge and removeIsolatedNode and faces given to area exist (the C++ signatures take references)."
  },
  {
   "property": "C64",
   "status": "partial",
   "theorems": [
    "Verif.DartPos.dartPosition_history",
    "Verif.DartPos.forward_safe",
    "Verif.DartPos.gotoArcLength_forward",
    "Verif.DartPos.gotoArcLength_backward",
    "Verif.DartPos.leaveCircle_exact",
    "Verif.DartPos.intersectCircle_exact",
    "Verif.DartPos.gotoArcLength_violated",
    "Verif.DartPos.gotoPrevSegment_violated",
    "Verif.DartPos.arcLength_violated",
    "Verif.DartPos.intersectCircle_violated",
    "Verif.DartPos.hist_of_dart"
   ],
   "note": "Proved for all histories of calls that go forward (gotoArcLength not behind the start of the current segment, circles intersected from the inside). False of the code otherwise: going back never reaches the first segment (exact condition gotoArcLength_backward, gotoArcLength_violated for every dart), gotoPrevSegment goes to the beginning of the current segment (for every dart), arcLength() exceeds the length of the dart after a failed intersectCircle, and intersectCircle leaves the dart if the segment starts outside of the circle. double is modelled by the reals."
  },
  {
   "property": "C65",
   "status": "partial",
   "theorems": [
    "Verif.Eventually.sortEdgesEventually_safe",
    "Verif.Eventually.sortEdgesEventually_initialized",
    "Verif.Eventually.sortEdgesEventually_limit",
    "Verif.Eventually.sortEdgesEventually_terminates",
    "Verif.Eventually.sortEdgesEventually_separated",
    "Verif.Eventually.sortEdgesEventually_endless_violated",
    "Verif.Eventually.sortEdgesEventually_star_violated",
    "Verif.Eventually.sortEdgesEventually_single_point_violated",
    "Verif.Eventually.sortEdgesEventually_seam_violated"
   ],
   "note": "Proved: safety, frame, order across gaps and the shape of the unsortable groups for all maps whose edges have two points; termination if (degree - 1) * minAngle is at most 60 degrees; no recursion if the directions are minAngle apart. False of the code: the recursion does not end if the darts lie all around the node closer than minAngle (general theorem and a star of six edges), an edge with a single point is read beyond its end, and two darts on both sides of the negative x axis count as separate however close they are. double is modelled by the reals."
  },
  {
   "property": "C66",
   "status": "partial",
   "theorems": [
    "Verif.Resample.linearInterpolation_samples",
    "Verif.Resample.linearInterpolation_spacing",
    "Verif.Resample.linearInterpolation_two_points_violated"
   ],
   "note": "Proved for all polygons of at least three points. False for two points: such a polygon is returned as it is, however long. double is modelled by the reals."
  },
  {
   "property": "C67",
   "status": "partial",
   "theorems": [
    "Verif.Resample.resamplePolygon_ok_partial",
    "Verif.Resample.resamplePolygon_one_point_violated",
    "Verif.Resample.resamplePolygon_empty_violated",
    "Verif.Resample.resamplePolygon_spacing_violated"
   ],
   "note": "Proved: no access out of range, no division by zero, number of points, end points and closedness, and the farthest point for short closed polygons, for all polygons of at least two points. False of the code: polygons of one or no point are read out of range; on a straight line of length 3 with d = 1 the points are at 0, 19/18, 35/18 and 3. Missing: how far the result is from the polygon. double is modelled by the reals."
  },
  {
   "property": "C68",
   "status": "partial",
   "theorems": [
    "Verif.Resample.exponentialFilter_safe",
    "Verif.Resample.exponentialFilter_hull",
    "Verif.Resample.exponentialFilter_open_violated"
   ],
   "note": "Proved: no access out of range and no division by zero for all polygons of at least three points (shorter ones are returned unchanged), closed and in every half-plane that contains the polygon for closed ones. False of the code: end points of open polygons move. double is modelled by the reals (so weights do not underflow)."
  },
  {
   "property": "C69",
   "status": "partial",
   "theorems": [
    "Verif.Resample.digitalLine_ends_partial",
    "Verif.Resample.digitalLine_parallel_violated",
    "Verif.Resample.digitalLine_closed_violated",
    "Verif.Resample.digitalLine_double_violated",
    "Verif.Resample.lineIntersection_on",
    "Verif.Resample.digitalLine_refused"
   ],
   "note": "Proved for every successful call: no added points, end points, closedness. False of the code: division by zero for a simple 8-connected path whose two lines are parallel, and for a closed polygon on a single line; after a repeated first point the next point is dropped wherever it is."
  },
  {
   "property": "C70",
   "status": "partial",
   "theorems": [
    "Verif.PyPoly.index_read_write",
    "Verif.PyPoly.index_insert_delete_partial",
    "Verif.PyPoly.index_insert_negative_violated",
    "Verif.PyPoly.index_delete_violated"
   ],
   "note": "Proved for reading, writing and splitting with all indices, and for inserting and deleting with indices that are not negative. False of the code: insert with a negative index inserts one place too far; del p[-1] and del p[len(p)] erase the end iterator, other negative indices delete the wrong point."
  },
  {
   "property": "C71",
   "status": "partial",
   "theorems": [
    "Verif.PyPoly.intersectLine_runs_partial",
    "Verif.PyPoly.intersectLine_enter",
    "Verif.PyPoly.intersectLine_leave_violated",
    "Verif.PyPoly.intersectLine_division_violated",
    "Verif.PyPoly.intersectLine_end_violated"
   ],
   "note": "Proved: the runs, their order and points and the points where the polygon enters; complete for polygons that do not leave the half-plane. False of the code: the distance of the previous point is only remembered for points outside, so the point where the polygon leaves is never on the line after an entry (proved for all such polygons), and distances -1, 1, -1 divide by zero. double is modelled by the reals."
  },
  {
   "property": "C72",
   "status": "proved",
   "theorems": [
    "Verif.PyPoly.markEdge_pixels",
    "Verif.PyPoly.label_image_history",
    "Verif.PyPoly.removeEdge_returns"
   ],
   "note": "The float pixels are modelled by integers (exact up to 2^24 edges over a pixel). Labels and substitute labels are not negative, as in the code's own use."
  },
  {
   "property": "C73",
   "status": "partial",
   "theorems": [
    "Verif.PyPoly.tangentList_exact",
    "Verif.PyPoly.tangentList_step",
    "Verif.PyPoly.curvatureList_exact_partial",
    "Verif.PyPoly.curvatureList_step_violated"
   ],
   "note": "Proved for all dx >= 1; tangentList refuses all others. False of the code for curvatureList: dx = 0 is not refused and reads out of range for every polygon. double is modelled by the reals."
  },
  {
   "property": "C74",
   "status": "proved",
   "theorems": [
    "Verif.PyPoly.composeTangentLists_exact",
    "Verif.PyPoly.composeTangentLists_ascending"
   ],
   "note": "double is modelled by the reals. The second overload of appendTangentList (never called) is not modelled."
  },
  {
   "property": "C75",
   "status": "proved",
   "theorems": [
    "Verif.PyPoly.parabolaFit_exact",
    "Verif.PyPoly.parabolaFit_unique"
   ],
   "note": "The solution of the 3x3 system by vigra::linearSolve is not modelled: the theorems hold for every solution of the system that the code sets up. double is modelled by the reals."
  },
  {
   "property": "C76",
   "status": "proved",
   "theorems": [
    "Verif.FourEight.Props.initCellImage_total",
    "Verif.FourEight.Props.refused_is_simple",
    "Verif.FourEight.Props.line_two_sides",
    "Verif.FourEight.Props.line_corner",
    "Verif.FourEight.Props.junction_is_node",
    "Verif.FourEight.Props.corner_choice",
    "Verif.FourEight.Props.classify_rotate",
    "Verif.FourEight.Props.classify_mirror",
    "Verif.FourEight.Props.contourImage_spec"
   ],
   "note": "The table is copied entry by entry. Pixel (-1, -1) is always a node, as in the code. The contour image holds 0 and 1 only, as initGeoMapContourImage makes it."
  },
  {
   "property": "C77",
   "status": "proved",
   "theorems": [
    "Verif.FourEight.Props.mergeFaces_effect",
    "Verif.FourEight.Props.removeBridge_effect",
    "Verif.FourEight.Props.mergeEdges_effect",
    "Verif.FourEight.Props.removeIsolatedNode_effect",
    "Verif.FourEight.Props.mergedAnchor_other"
   ],
   "note": "Partial correctness: about calls that return. That contours of faces stay correct is not claimed."
  },
  {
   "property": "C78",
   "status": "partial",
   "theorems": [
    "Verif.FourEight.Props.history_consistent",
    "Verif.FourEight.Props.consistent_any_dart",
    "Verif.FourEight.Props.stale_dart_violated",
    "Verif.FourEight.Props.infinite_size_violated"
   ],
   "note": "Proved for all histories. removeBridge and mergeEdges keep it for any dart, mergeFaces as long as it does not remove face 0 (shown for darts that are ends of their edge), removeIsolatedNode for nodes that are isolated. Two exceptions are false of the code and proved so: the size of face 0 is UINT_MAX at first and wraps around; removeIsolatedNode accepts a dart of an edge that was removed before, although other edges end at the node, and breaks the bounds of the face. For maps from the constructor the condition on mergeFaces is no condition: see C93."
  },
  {
   "property": "C79",
   "status": "proved",
   "theorems": [
    "Verif.FourEight.Props.construct_consistent",
    "Verif.FourEight.Props.construct_contours"
   ],
   "note": "The functions of VIGRA that are used (contour lengths, components) are arbitrary: the theorem holds whatever they return."
  },
  {
   "property": "C80",
   "status": "proved",
   "theorems": [
    "Verif.Parallel.splitParallelEdges_ok",
    "Verif.Parallel.splitParallelEdges_order",
    "Verif.Parallel.splitParallelEdges_refused",
    "Verif.Parallel.mergeStep_refused"
   ],
   "note": "Verif/Parallel. Loop invariants for the splitting and the merging loop. The preference computed from the directions of the darts is a parameter. Bounding boxes and cached lengths of the edges are left out."
  },
  {
   "property": "C81",
   "status": "proved",
   "theorems": [
    "Verif.Parallel.sortEdgesEventually_plan",
    "Verif.Parallel.sortEdgesEventually_nested",
    "Verif.Parallel.sort_then_split"
   ],
   "note": "Verif/Parallel/SortedProps.lean, example in Fork.lean. Induction over the recursion of sortEdgesInternal. The condition on small angles is the one of C65; the conditions on the plan (no split at the end of a dart, no crossing) are needed because the code does not check them (DESIGN.md, findings)."
  },
  {
   "property": "C82",
   "status": "proved",
   "theorems": [
    "Verif.Midcrack.crackEdgesToMidcracks_ok",
    "Verif.Midcrack.crackEdgesToMidcracks_area",
    "Verif.Midcrack.midcracks_half_plane",
    "Verif.Midcrack.midcracks_direction",
    "Verif.Midcrack.midcracks_length_le",
    "Verif.Midcrack.crackEdgeMap_midcracks"
   ],
   "note": "Exact numbers; length over the reals. Label image and cached scanlines are not updated by the code and not modelled here."
  },
  {
   "property": "C83",
   "status": "partial",
   "theorems": [
    "Verif.Midcrack.thresholdPoint_vertical",
    "Verif.Midcrack.thresholdPoint_horizontal",
    "Verif.Midcrack.Interpolates.between",
    "Verif.Midcrack.thresholdPoint_outside",
    "Verif.Midcrack.thresholdPoint_local",
    "Verif.Midcrack.thresholdPoint_equal",
    "Verif.Midcrack.midcracksToThreshold_ok",
    "Verif.Midcrack.midcracksToThreshold_exists",
    "Verif.Midcrack.midcracksToThreshold_geom_partial",
    "Verif.Midcrack.midcracksToThreshold_loop_violated",
    "Verif.Midcrack.midcracksToThreshold_end_violated",
    "Verif.Midcrack.midcracksToThreshold_zero_violated"
   ],
   "note": "Interpolation, topology and areas are proved. That edges still end at their nodes is false: the nodes of closed contours are not moved (loop_violated), ends at junctions are moved without the node (end_violated), and equal pixels at a junction give a division by zero (zero_violated); proved if the ends lie where no point is moved (geom_partial)."
  },
  {
   "property": "C84",
   "status": "proved",
   "theorems": [
    "Verif.Midcrack.markBorder_ok",
    "Verif.Midcrack.onContour_border",
    "Verif.Midcrack.markBorder_empty",
    "Verif.Midcrack.crackEdgeMap_border"
   ],
   "note": ""
  },
  {
   "property": "C85",
   "status": "proved",
   "theorems": [
    "Verif.Midcrack.contourLength_sum",
    "Verif.Midcrack.contourLength_start",
    "Verif.Midcrack.isoperimetricQuotient_eq"
   ],
   "note": "The length of a polygon is a parameter (see C29 for the cached length of Polygon)."
  },
  {
   "property": "C86",
   "status": "partial",
   "theorems": [
    "Verif.FourEight.Props.sigma_inverse",
    "Verif.FourEight.Props.sigma_nodeLabel",
    "Verif.FourEight.Props.contours_navigable",
    "Verif.FourEight.Props.contours_permutations",
    "Verif.FourEight.Props.sigma_inverse_violated"
   ],
   "note": "Proved for images in which no edge pixel fills the corner between two node pixels, which holds for every accepted image with cornerType CellTypeVertex. False with cornerType CellTypeLine (sigma_inverse_violated)."
  },
  {
   "property": "C87",
   "status": "proved",
   "theorems": [
    "Verif.FourEight.Props.alpha_involution",
    "Verif.FourEight.Props.contours_navigable",
    "Verif.FourEight.Props.contours_permutations"
   ],
   "note": "The walk over pixels, which is what nextAlpha does until the edge list exists and what fills the edge list (C66)."
  },
  {
   "property": "C88",
   "status": "proved",
   "theorems": [
    "Verif.FourEight.Props.dart_faces",
    "Verif.FourEight.Props.alpha_faces",
    "Verif.FourEight.Props.sigma_faces",
    "Verif.FourEight.Props.phi_leftFace",
    "Verif.FourEight.Props.phi_undo",
    "Verif.FourEight.Props.contours_navigable"
   ],
   "note": "Labels: neighbouring pixels of faces (four neighbours) have the same label, which is what labelFaces establishes. Before the edge list exists, see C87."
  },
  {
   "property": "C89",
   "status": "partial",
   "theorems": [
    "Verif.Resample.gaussianFilter_open_partial",
    "Verif.Resample.gaussianFilter_closed_partial",
    "Verif.Resample.gaussianFilter_short",
    "Verif.Resample.gaussianFilter_sparse_violated",
    "Verif.Resample.gaussianFilter_hang_violated"
   ],
   "note": "Proved for polygons without segments longer than twice the radius and, if closed, with more than the radius left without the last segment. Both conditions are needed: otherwise 0/0 (gaussianFilter_sparse_violated) or an endless loop (gaussianFilter_hang_violated)."
  },
  {
   "property": "C90",
   "status": "partial",
   "theorems": [
    "Verif.Resample.spline3Integral_integral",
    "Verif.Resample.augment_partial",
    "Verif.Resample.augment_violated",
    "Verif.Resample.augment_short_violated",
    "Verif.Resample.augment_refuses"
   ],
   "note": "Proved if the last segment of the polygon is not longer than one part; false otherwise (augment_violated), and with fewer than three segments an index is out of range (augment_short_violated). Right hand sides next to the ends and the solution of the equations are not modelled."
  },
  {
   "property": "C91",
   "status": "partial",
   "theorems": [
    "Verif.FourEight.Props.labelEdge_exact",
    "Verif.FourEight.Props.edgeLabel_alpha",
    "Verif.FourEight.Props.labelCells_labels_partial",
    "Verif.FourEight.Props.labelCells_violated",
    "Verif.FourEight.Props.labelCells_returns"
   ],
   "note": "The labelling returns (labelCells_returns) and the labels are as stated if no node has darts in a hole (OneRim); false with such a node (labelCells_violated). VIGRA's labels of nodes and faces are parameters with the properties Components.Sane."
  },
  {
   "property": "C92",
   "status": "partial",
   "theorems": [
    "Verif.FourEight.Props.initMap_start_partial",
    "Verif.FourEight.Props.initMap_returns_partial"
   ],
   "note": "initMap_returns_partial: the constructor returns for every accepted source image whose nodes have no holes (NoHoles), with VIGRA's promises for labels and the enclosed area as hypotheses. initMap_start_partial: what it then returns (it only needs OneRim: no dart in a hole). Missing: nodes with holes (there the labels are wrong already, see labelCells_violated) and corner type line."
  },
  {
   "property": "C93",
   "status": "partial",
   "theorems": [
    "Verif.FourEight.Props.history_exact_partial",
    "Verif.FourEight.Props.frame_exact",
    "Verif.FourEight.Props.isolated_anchor_violated"
   ],
   "note": "Proved for all histories from the constructor if no node has a hole (NoHoles), with VIGRA's promises as hypotheses; EndsFit, assumed in C78, is shown here. removeIsolatedNode has to be called with a dart that sees a face on its left, as the darts of removed edges do; the anchor stored for a node that is isolated from the start need not (isolated_anchor_violated). Missing: nodes with holes, anchors of contours (anchors of nodes: C95), and that the operations return."
  },
  {
   "property": "C94",
   "status": "proved",
   "theorems": [
    "Verif.FourEight.Props.serialize_roundtrip",
    "Verif.FourEight.Props.serialize_violated",
    "Verif.FourEight.Props.serialize_collision_violated"
   ],
   "note": "Round trip up to the limit (the hypotheses are the limit); beyond it the loss is shown for every dart, with a collision as witness."
  },
  {
   "property": "C95",
   "status": "partial",
   "theorems": [
    "Verif.FourEight.Props.pyramid_exact_partial",
    "Verif.FourEight.Props.removeEdgeWithEnds_steps",
    "Verif.FourEight.Props.pyrStep_reach",
    "Verif.FourEight.Props.pyr_history",
    "Verif.FourEight.Props.pyr_exact",
    "Verif.FourEight.Props.recorded_effect_partial",
    "Verif.FourEight.Props.pyr_effect"
   ],
   "note": "Proved for all histories from the constructor under the hypotheses of C93, for images of at most 2^14 columns and rows with the frame (C94) and nodes with fewer than 2^16 darts (degree is 16 bits). Composite operations: C96. Missing: the statistics that are notified (of faces: C97), and that the operations return."
  },
  {
   "property": "C96",
   "status": "partial",
   "theorems": [
    "Verif.FourEight.Props.levels_exact_partial",
    "Verif.FourEight.Props.pixel_session_exact"
   ],
   "note": "The pyramid of C38 with the pixel based map as its parameter; hypotheses of C95. Missing: sessions in which an operation throws (C39 shows that those break the pyramid), the statistics (of faces: C97), holes in nodes."
  },
  {
   "property": "C97",
   "status": "partial",
   "theorems": [
    "Verif.FourEight.Props.faceStats_exact_partial",
    "Verif.FourEight.Props.statFunctor_exact",
    "Verif.FourEight.Props.faceStats_violated",
    "Verif.FourEight.Props.stats_miss",
    "Verif.FourEight.Props.bar_stats"
   ],
   "note": "Proved for all histories from the constructor under the hypotheses of C93, up to the pixels of the infinite face of the first map and of removed isolated nodes, which are never counted: the second is shown to be a violation. Missing: the rethinning of edges, rounding of floating point sums."
  },
  {
   "property": "C98",
   "status": "partial",
   "theorems": [
    "Verif.FourEight.Props.protection_exact_partial",
    "Verif.FourEight.Props.frame_protection",
    "Verif.FourEight.Props.protectEdge_violated"
   ],
   "note": "Proved for all histories from the constructor under the hypotheses of C93 and for flags of one bit. For flags of several bits it is shown to be violated. Missing: the rethinning of edges, the operations of the pyramid."
  },
  {
   "property": "C99",
   "status": "partial",
   "theorems": [
    "Verif.FourEight.Props.edgeStats_exact_partial",
    "Verif.FourEight.Props.plus_edge",
    "Verif.FourEight.Props.bar_edge",
    "Verif.FourEight.Props.edgeStats_violated"
   ],
   "note": "Proved for all histories from the constructor under the hypotheses of C93, in any commutative ring. That edges beside the infinite face always have the marker is shown to be violated. Missing: rounding, the rethinning of edges, node centers."
  },
  {
   "property": "C100",
   "status": "partial",
   "theorems": [
    "Verif.FourEight.Props.lastChanges_covers_partial",
    "Verif.FourEight.Props.bar_changes"
   ],
   "note": "All histories from the constructor of the map under the hypotheses of C93, for doEdgeRethinning = false. Missing: the rethinning of edges, an option that is on by default."
  },
  {
   "property": "C101",
   "status": "partial",
   "theorems": [
    "Verif.FourEight.Props.autoProtection_exact_partial",
    "Verif.FourEight.Props.bar_auto"
   ],
   "note": "All histories from the constructor under the hypotheses of C93, for doEdgeRethinning = false. Missing: the rethinning of edges (on by default); the comparison of the number of edgels with a floating point number is a parameter."
  },
  {
   "property": "C102",
   "status": "partial",
   "theorems": [
    "Verif.FourEight.Props.autoProtection_stays_partial",
    "Verif.FourEight.Props.plus_auto",
    "Verif.FourEight.Props.autoProtection_violated"
   ],
   "note": "Proved for edges with all pixels in segDataBounds, for all histories from the constructor under the hypotheses of C93 and doEdgeRethinning = false. For edges that leave segDataBounds it is shown to be violated. Missing: the rethinning of edges (on by default); the comparison with a floating point number is a parameter."
  }
 ]
}

import Verif.Outcome
import Mathlib.Algebra.Field.Defs
import Mathlib.Order.Defs.LinearOrder
import Mathlib.Logic.Function.Basic

/-!
# Model of `GeoMap` (src/geomap/cppmap.hxx, src/geomap/cppmap.cxx)

The state is the part of `GeoMap` on which the Euler operations act: the cell vectors,
the cell counters and the two sigma arrays.

Simplifications, valid for the whole file:

* A `std::vector` of cell pointers is a size plus a function `label → Option cell`
  (`none` = NULL pointer).  Reading a label `≥ size` is a failed precondition, as in the
  accessors `node()/edge()/face()` (cppmap.hxx:255-320); dereferencing NULL is `ub`.
* The label stored inside a cell (`label_`) is its index in the vector.
* The sigma arrays are total functions `Int → Int` here; their bounds and their growth are
  the subject of `Verif/Sigma`.
* `double` is an ordered field `K`; an edge's `partialArea()` is computed from its points
  (the caching in `Polygon` is the subject of `Verif/Polygon`).
* `UNINITIALIZED_CELL_LABEL` is `none`.
* Hooks (callbacks) may look at the map but not modify it.
* The label image part of the operations is in `Verif/LabelImage`, bounding boxes and
  `nodeMap_` are left out here.
* Loops that walk around an orbit get fuel `2·edges_.size() + 1`; running out of fuel is the
  outcome `hang`.
-/

namespace Verif.GeoMap
open Verif

/-- `Vector2` (cppmap.hxx:72) -/
abbrev Pt (K : Type) := K × K

/-- cppmap.hxx:440-519 `GeoMap::Node`: position and sigma anchor (0 = isolated). -/
structure Node (K : Type) where
  pos : Pt K
  anchor : Int

/-- cppmap.hxx:530-693 `GeoMap::Edge`: end nodes, face labels, geometry, flags. -/
structure Edge (K : Type) where
  startN : Nat
  endN : Nat
  leftF : Option Nat
  rightF : Option Nat
  pts : List (Pt K)
  flags : Nat

/-- cppmap.hxx:1069-1305 `GeoMap::Face`: one anchor dart per contour, cached area
(`area_` if `AREA_VALID`), pixel count. -/
structure Face (K : Type) where
  anchors : List Int
  area : Option K
  pixelArea : Nat

/-- cppmap.hxx:186-214: the data members of `GeoMap` used by the topological operations. -/
structure GMap (K : Type) where
  nNodes : Nat
  nEdges : Nat
  nFaces : Nat
  node : Nat → Option (Node K)
  edge : Nat → Option (Edge K)
  face : Nat → Option (Face K)
  nodeCount : Nat
  edgeCount : Nat
  faceCount : Nat
  sigma : Int → Int
  sigmaInv : Int → Int
  edgesSorted : Bool

/-- The callbacks that can cancel an operation (cppmap.hxx:373-401), as seen through the
`interruptable_accumulator` (all connected slots agreed). -/
structure Hooks (K : Type) where
  removeNode : GMap K → Nat → Bool
  preMergeEdges : GMap K → Int → Bool
  preRemoveBridge : GMap K → Int → Bool
  preMergeFaces : GMap K → Int → Bool

/-- No callbacks connected. -/
def Hooks.none {K : Type} : Hooks K := ⟨fun _ _ => true, fun _ _ => true, fun _ _ => true, fun _ _ => true⟩

section
variable {K : Type}

namespace GMap

/-- cppmap.cxx:230-243, constructor: `edges_[0]` is NULL. -/
def empty : GMap K where
  nNodes := 0
  nEdges := 1
  nFaces := 0
  node := fun _ => .none
  edge := fun _ => .none
  face := fun _ => .none
  nodeCount := 0
  edgeCount := 0
  faceCount := 0
  sigma := fun _ => 0
  sigmaInv := fun _ => 0
  edgesSorted := false

/-- cppmap.hxx:346 `mapInitialized()` -/
def initialized (s : GMap K) : Prop := 0 < s.nFaces

instance (s : GMap K) : Decidable s.initialized := inferInstanceAs (Decidable (0 < s.nFaces))

/-- fuel for orbit walks: more than the number of darts -/
def fuel (s : GMap K) : Nat := 2 * s.nEdges + 1

/-- cppmap.hxx:291-295 `edge(label)` / 891-903 `guaranteedEdge()`: both an out-of-range label and
a NULL pointer make a precondition fail. -/
def guaranteedEdge (s : GMap K) (d : Int) : Outcome (Edge K) :=
  match s.edge d.natAbs with
  | some e => .ok e
  | none => .precond

/-- `*node(label)` (cppmap.hxx:262-266) -/
def derefNode (s : GMap K) (n : Nat) : Outcome (Node K) :=
  if n < s.nNodes then
    match s.node n with
    | some x => .ok x
    | none => .ub
  else .precond

/-- `*face(label)` (cppmap.hxx:308-312) -/
def derefFace (s : GMap K) : Option Nat → Outcome (Face K)
  | none => .precond
  | some f =>
    if f < s.nFaces then
      match s.face f with
      | some x => .ok x
      | none => .ub
    else .precond

/-- cppmap.hxx:833-839 `Dart::startNodeLabel` on a live dart. -/
def _root_.Verif.GeoMap.Edge.startOf (e : Edge K) (d : Int) : Nat := if 0 < d then e.startN else e.endN
/-- cppmap.hxx:841-847 `Dart::endNodeLabel`. -/
def _root_.Verif.GeoMap.Edge.endOf (e : Edge K) (d : Int) : Nat := if 0 < d then e.endN else e.startN
/-- cppmap.hxx:862-868 `Dart::leftFaceLabel`. -/
def _root_.Verif.GeoMap.Edge.leftOf (e : Edge K) (d : Int) : Option Nat := if 0 < d then e.leftF else e.rightF
/-- cppmap.hxx:870-876 `Dart::rightFaceLabel`. -/
def _root_.Verif.GeoMap.Edge.rightOf (e : Edge K) (d : Int) : Option Nat := if 0 < d then e.rightF else e.leftF
/-- cppmap.hxx:789-795 assignment to `Dart::internalLeftFaceLabel()`. -/
def _root_.Verif.GeoMap.Edge.setLeft (e : Edge K) (d : Int) (f : Nat) : Edge K :=
  if 0 < d then { e with leftF := some f } else { e with rightF := some f }

/-- start node label of a dart (`Dart::startNodeLabel()`) -/
def startLabel (s : GMap K) (d : Int) : Outcome Nat := (s.guaranteedEdge d).map (·.startOf d)
/-- end node label of a dart -/
def endLabel (s : GMap K) (d : Int) : Outcome Nat := (s.guaranteedEdge d).map (·.endOf d)
/-- left face label of a dart -/
def leftLabel (s : GMap K) (d : Int) : Outcome (Option Nat) := (s.guaranteedEdge d).map (·.leftOf d)
/-- right face label of a dart -/
def rightLabel (s : GMap K) (d : Int) : Outcome (Option Nat) := (s.guaranteedEdge d).map (·.rightOf d)

/-- cppmap.hxx:934-944 `nextSigma`, `prevSigma` -/
def nextSigma (s : GMap K) (d : Int) : Int := s.sigma d
def prevSigma (s : GMap K) (d : Int) : Int := s.sigmaInv d
/-- cppmap.hxx:946-954 `nextPhi` = alpha then prevSigma, `prevPhi` = nextSigma then alpha -/
def phi (s : GMap K) (d : Int) : Int := s.sigmaInv (-d)
def phiInv (s : GMap K) (d : Int) : Int := -(s.sigma d)

/-! State updates -/

def setNode (s : GMap K) (n : Nat) (x : Option (Node K)) : GMap K :=
  { s with node := Function.update s.node n x }
def setEdge (s : GMap K) (l : Nat) (x : Option (Edge K)) : GMap K :=
  { s with edge := Function.update s.edge l x }
def setFace (s : GMap K) (f : Nat) (x : Option (Face K)) : GMap K :=
  { s with face := Function.update s.face f x }

/-- cppmap.hxx:1314-1323 `Node::uninitialize` (`nodeMap_` not modelled here) -/
def uninitNode (s : GMap K) (n : Nat) : GMap K :=
  { s.setNode n none with nodeCount := s.nodeCount - 1 }
/-- cppmap.hxx:1325-1331 `Edge::uninitialize` -/
def uninitEdge (s : GMap K) (l : Nat) : GMap K :=
  { s.setEdge l none with edgeCount := s.edgeCount - 1 }
/-- cppmap.hxx:1333-1339 `Face::uninitialize` -/
def uninitFace (s : GMap K) (f : Nat) : GMap K :=
  { s.setFace f none with faceCount := s.faceCount - 1 }

/-- assignments `sigmaMapping_[i] = v`, `sigmaInverseMapping_[i] = v` -/
def setSigma (s : GMap K) (i v : Int) : GMap K := { s with sigma := Function.update s.sigma i v }
def setSigmaInv (s : GMap K) (i v : Int) : GMap K := { s with sigmaInv := Function.update s.sigmaInv i v }

/-- cppmap.cxx:1273-1290 `insertSigmaPredecessor` (array growth: see `Verif/Sigma`) -/
def insertSigmaPredecessor (s : GMap K) (successor newPredecessor : Int) : GMap K :=
  if successor = 0 then
    (s.setSigma newPredecessor newPredecessor).setSigmaInv newPredecessor newPredecessor
  else
    let oldPredecessor := s.sigmaInv successor
    let s := s.setSigma oldPredecessor newPredecessor
    let s := s.setSigma newPredecessor successor
    let s := s.setSigmaInv successor newPredecessor
    s.setSigmaInv newPredecessor oldPredecessor

/-- cppmap.cxx:1292-1309 `detachDart` -/
def detachDart (s : GMap K) (d : Int) : Outcome (GMap K) := do
  let n ← s.startLabel d
  let nd ← s.derefNode n
  let successor := s.sigma d
  let predecessor := s.sigmaInv d
  let s := s.setSigma predecessor successor
  let s := s.setSigmaInv successor predecessor
  if nd.anchor = d then
    if successor ≠ d then
      .ok (s.setNode n (some { nd with anchor := successor }))
    else
      .ok (s.setNode n (some { nd with anchor := 0 }))
  else .ok s

/-! Geometry of edges -/

/-- assignment to `Dart::internalLeftFaceLabel()` -/
def setLeft (s : GMap K) (d : Int) (f : Nat) : Outcome (GMap K) := do
  let e ← s.guaranteedEdge d
  .ok (s.setEdge d.natAbs (some (e.setLeft d f)))

end GMap

/-- cppmap.cxx:147-192 `Edge::concatenate`, the point list part (`points_.insert`). -/
def concatPts (this other : List (Pt K)) (atEnd reverse : Bool) : List (Pt K) :=
  match reverse, atEnd with
  | true, true => this ++ other.reverse.drop 1
  | true, false => other.reverse.dropLast ++ this
  | false, true => this ++ other.drop 1
  | false, false => other.dropLast ++ this

section Geometry
variable [Field K]

/-- polygon.hxx:733-740 `partialArea`, the loop: twice the area -/
def area2 : List (Pt K) → K
  | [] => 0
  | [_] => 0
  | p :: q :: l => (q.1 * p.2 - q.2 * p.1) + area2 (q :: l)

/-- polygon.hxx:733-740 -/
def partialArea (l : List (Pt K)) : K := area2 l / 2

/-- cppmap.hxx:906-912 `Dart::partialArea` -/
def Edge.areaOf (e : Edge K) (d : Int) : K := if 0 < d then partialArea e.pts else -partialArea e.pts

namespace GMap

/-- cppmap.cxx:69-80 `contourArea` (do-while loop around the phi orbit) -/
def contourAreaLoop (s : GMap K) (start : Int) : Nat → Int → K → Outcome K
  | 0, _, _ => .hang
  | fuel + 1, d, acc => do
    let e ← s.guaranteedEdge d
    let acc := if e.leftF ≠ e.rightF then acc + e.areaOf d else acc
    let d' := s.phi d
    if d' = start then .ok acc else contourAreaLoop s start fuel d' acc

/-- cppmap.cxx:69-80 `contourArea` -/
def contourArea (s : GMap K) (d : Int) : Outcome K := s.contourAreaLoop d s.fuel d 0

/-- cppmap.hxx:1189-1195: sum over the contours -/
def sumContourAreas (s : GMap K) : List Int → K → Outcome K
  | [], acc => .ok acc
  | a :: as, acc => do
    let x ← s.contourArea a
    sumContourAreas s as (acc + x)

/-- cppmap.hxx:1184-1199 `Face::area()`: returns the area and the state with the cache set. -/
def faceArea (s : GMap K) (f : Option Nat) : Outcome (K × GMap K) := do
  let F ← s.derefFace f
  match F.area, f with
  | some a, _ => .ok (a, s)
  | none, some l => do
    let a ← s.sumContourAreas F.anchors 0
    .ok (a, s.setFace l (some { F with area := some a }))
  | none, none => .precond

end GMap
end Geometry

namespace GMap

/-- cppmap.cxx:2232-2235: is `target` met on the walk from `phi d` until `start` returns? -/
def walkFinds (s : GMap K) (start target : Int) : Nat → Int → Outcome Bool
  | 0, _ => .hang
  | fuel + 1, d =>
    let d' := s.phi d
    if d' = start then .ok false
    else if d' = target then .ok true
    else walkFinds s start target fuel d'

/-- cppmap.cxx:2230-2236: second search loop of `findComponentAnchor` -/
def findWalk (s : GMap K) (target : Int) : List Int → Nat → Outcome Nat
  | [], _ => .precond
  | a :: as, i => do
    let b ← s.walkFinds a target s.fuel a
    if b then .ok i else findWalk s target as (i + 1)

/-- cppmap.cxx:2223-2240 `findComponentAnchor`: index of the anchor of `d`'s contour
(`vigra_fail` if there is none) -/
def findComponentAnchor (s : GMap K) (anchors : List Int) (d : Int) : Outcome Nat :=
  if d ∈ anchors then .ok (anchors.idxOf d) else s.findWalk d anchors 0

/-! ## Euler operations -/

/-- cppmap.cxx:1664-1671 `removeIsolatedNode`.  Result: was it removed, new state. -/
def removeIsolatedNode (h : Hooks K) (s : GMap K) (n : Nat) : Outcome (Bool × GMap K) := do
  let _ ← s.derefNode n
  if h.removeNode s n then .ok (true, s.uninitNode n) else .ok (false, s)

/-- cppmap.cxx:1801-1810: the first anchor of face `f` that lies on edge `l` is moved on -/
def moveAnchorOff (s : GMap K) (l : Nat) : List Int → List Int
  | [] => []
  | a :: as => if a.natAbs = l then s.phi a :: as else a :: moveAnchorOff s l as

/-- cppmap.cxx:1799-1811 for one of the two faces -/
def moveFaceAnchor (s : GMap K) (l : Nat) (f : Option Nat) : Outcome (GMap K) := do
  let F ← s.derefFace f
  match f with
  | some f => .ok (s.setFace f (some { F with anchors := s.moveAnchorOff l F.anchors }))
  | none => .precond

/-- cppmap.cxx:1847-1862: `-d2` is replaced by `d1` in its sigma orbit -/
def replaceInOrbit (s : GMap K) (d1 d2 : Int) : GMap K :=
  let successor := s.sigma (-d2)
  if successor = -d2 then
    (s.setSigma d1 d1).setSigmaInv d1 d1
  else
    let predecessor := s.sigmaInv (-d2)
    let s := s.setSigma predecessor d1
    let s := s.setSigma d1 successor
    let s := s.setSigmaInv successor d1
    s.setSigmaInv d1 predecessor

/-- cppmap.cxx:1825-1840: the surviving edge after `concatenate` and the new end node label.
`m` is the merged node, `n2` the other end of the merged edge. -/
def mergedGeometry (survivor merged : Edge K) (m n2 : Nat) : Edge K :=
  if survivor.startN ≠ m then
    { survivor with
        pts := concatPts survivor.pts merged.pts true (decide (merged.startN ≠ m)), endN := n2 }
  else
    { survivor with
        pts := concatPts survivor.pts merged.pts false (decide (merged.startN = m)), startN := n2 }

/-- cppmap.cxx:1795-1812: no contour anchor may stay on the merged edge -/
def moveAnchors (s : GMap K) (d2 : Int) (e2 : Edge K) : Outcome (GMap K) :=
  if s.initialized then do
    let s ← s.moveFaceAnchor d2.natAbs (e2.leftOf d2)
    s.moveFaceAnchor d2.natAbs (e2.rightOf d2)
  else .ok s

/-- cppmap.cxx:1769-1871 `mergeEdges`.  Result: `none` = NULL (cancelled), otherwise the label of
the surviving edge. -/
def mergeEdges (h : Hooks K) (s : GMap K) (dart : Int) : Outcome (Option Nat × GMap K) := do
  let _ ← s.guaranteedEdge dart
  let x2 := s.sigma dart
  if x2.natAbs = dart.natAbs then .precond
  else
    let x1 := s.sigma x2
    if x1 ≠ dart then .precond
    else
      let d1 := if 0 < x1 ∧ x2 < 0 then x2 else x1
      let d2 := if 0 < x1 ∧ x2 < 0 then x1 else x2
      let m ← s.startLabel d2
      let _ ← s.derefNode m
      let e2 ← s.guaranteedEdge d2
      let s ← s.moveAnchors d2 e2
      if ¬ h.preMergeEdges s d1 then .ok (none, s)
      else if ¬ h.removeNode s m then .ok (none, s)
      else do
        let e1 ← s.guaranteedEdge d1
        let n2 := e2.endOf d2
        if e2.pts = [] then .ub
        else do
          let s := s.setEdge d1.natAbs (some (mergedGeometry e1 e2 m n2))
          let s := s.replaceInOrbit d1 d2
          let nd ← s.derefNode n2
          let s := s.setNode n2 (some { nd with anchor := d1 })
          let s := s.uninitNode m
          let s := s.uninitEdge d2.natAbs
          .ok (some d1.natAbs, s)

/-- cppmap.cxx:355-360 `addNode` -/
def addNode (s : GMap K) (p : Pt K) : Nat × GMap K :=
  (s.nNodes, { s with nNodes := s.nNodes + 1,
                      node := Function.update s.node s.nNodes (some ⟨p, 0⟩),
                      nodeCount := s.nodeCount + 1 })

/-- cppmap.hxx:560-573, `Edge` constructor: appended to `edges_` -/
def newEdge (s : GMap K) (e : Edge K) : Nat × GMap K :=
  (s.nEdges, { s with nEdges := s.nEdges + 1,
                      edge := Function.update s.edge s.nEdges (some e),
                      edgeCount := s.edgeCount + 1 })

/-- cppmap.cxx:1910-1938: sigma orbits and anchors after splitting edge `l`; the new edge is `r`,
the new node `nn`, the old end node `cn`. -/
def splitOrbits (s : GMap K) (l r nn cn : Nat) : Outcome (GMap K) := do
  let successor := s.sigma (-(l : Int))
  let predecessor := s.sigmaInv (-(l : Int))
  let s := s.setSigma (-(l : Int)) r
  let s := s.setSigma r (-(l : Int))
  let s := s.setSigmaInv r (-(l : Int))
  let s := s.setSigmaInv (-(l : Int)) r
  let nd ← s.derefNode nn
  let s := s.setNode nn (some { nd with anchor := (r : Int) })
  let cnd ← s.derefNode cn
  if successor = -(l : Int) then
    let s := s.setSigma (-(r : Int)) (-(r : Int))
    let s := s.setSigmaInv (-(r : Int)) (-(r : Int))
    .ok (s.setNode cn (some { cnd with anchor := -(r : Int) }))
  else
    let s := s.setSigma predecessor (-(r : Int))
    let s := s.setSigma (-(r : Int)) successor
    let s := s.setSigmaInv successor (-(r : Int))
    let s := s.setSigmaInv (-(r : Int)) predecessor
    if cnd.anchor = -(l : Int) then
      .ok (s.setNode cn (some { cnd with anchor := -(r : Int) }))
    else .ok s

/-- cppmap.cxx:1895-1899 (`edge.insert`): the point list of the edge after the optional insertion -/
def _root_.Verif.GeoMap.splitPts (pts : List (Pt K)) (i : Nat) : Option (Pt K) → List (Pt K)
  | some p => pts.insertIdx (i + 1) p
  | none => pts
/-- cppmap.cxx:1889: the split point itself -/
def _root_.Verif.GeoMap.splitPoint (pts : List (Pt K)) (i : Nat) : Option (Pt K) → Option (Pt K)
  | some p => some p
  | none => pts[i]?
/-- cppmap.cxx:1895-1899: index of the split point -/
def _root_.Verif.GeoMap.splitIdx (i : Nat) : Option (Pt K) → Nat
  | some _ => i + 1
  | none => i

/-- cppmap.cxx:1873-1950 `splitEdge` (both overloads; `newPoint = none` is
`insertPoint = false`).  Result: label of the new edge. -/
def splitEdge (s : GMap K) (l : Nat) (segmentIndex : Nat) (newPoint : Option (Pt K)) :
    Outcome (Nat × GMap K) := do
  let e ← s.guaranteedEdge l
  if e.pts = [] then .ub
  else if ¬ segmentIndex < e.pts.length - 1 then .precond
  else
    match splitPoint e.pts segmentIndex newPoint with
    | none => .ub
    | some p =>
      let _ ← s.derefNode e.endN
      let nn := s.nNodes
      let s := (s.addNode p).2
      let idx := splitIdx segmentIndex newPoint
      let pts := splitPts e.pts segmentIndex newPoint
      let r := s.nEdges
      let s := (s.newEdge { startN := nn, endN := e.endN, leftF := e.leftF, rightF := e.rightF,
                            pts := pts.drop idx, flags := e.flags }).2
      let s := s.setEdge l (some { e with pts := pts.take (idx + 1), endN := nn })
      let s ← s.splitOrbits l r nn e.endN
      .ok (r, s)

end GMap

section Ordered
variable [Field K] [LinearOrder K]
namespace GMap

/-- cppmap.cxx:1988-2016 of `removeBridge`: the new anchor list of the face.  `a1`, `a2` are the
new anchors, `i` the position of the old contour; `s` is the state after detaching. -/
def bridgeAnchors (s : GMap K) (f i : Nat) (anchors : List Int) (a1 a2 : Int) :
    Outcome (List Int) := do
  if i = 0 ∧ f ≠ 0 then do
    let x1 ← s.contourArea a1
    let x2 ← s.contourArea a2
    if x1 < x2 then .ok (anchors.set i a2 ++ [a1])
    else .ok (anchors.set i a1 ++ [a2])
  else .ok (anchors.set i a1 ++ [a2])

/-- cppmap.cxx:1986-2017: isolated end nodes are removed and the contours of the face updated.
`s` is the state after detaching both darts, `F` the face before. -/
def bridgeUpdate (h : Hooks K) (s : GMap K) (e : Edge K) (f : Nat) (F : Face K) (i : Nat)
    (dart a1 a2 : Int) : Outcome (GMap K) :=
  if a1.natAbs = dart.natAbs then do
    let (_, s) ← s.removeIsolatedNode h (e.startOf a1)
    if a2.natAbs = dart.natAbs then do
      let (_, s) ← s.removeIsolatedNode h (e.startOf a2)
      .ok (s.setFace f (some { F with anchors := F.anchors.eraseIdx i }))
    else .ok (s.setFace f (some { F with anchors := F.anchors.set i a2 }))
  else if a2.natAbs = dart.natAbs then do
    let (_, s) ← s.removeIsolatedNode h (e.startOf a2)
    .ok (s.setFace f (some { F with anchors := F.anchors.set i a1 }))
  else do
    let as ← s.bridgeAnchors f i F.anchors a1 a2
    .ok (s.setFace f (some { F with anchors := as }))

/-- cppmap.cxx:1960-2034 `removeBridge`.  Result: `none` = NULL (cancelled). -/
def removeBridge (h : Hooks K) (s : GMap K) (dart : Int) : Outcome (Option Nat × GMap K) := do
  let e ← s.guaranteedEdge dart
  let F ← s.derefFace (e.leftOf dart)
  let _ ← s.derefFace (e.rightOf dart)
  if e.leftOf dart ≠ e.rightOf dart then .precond
  else
    match e.leftOf dart with
    | none => .precond
    | some f =>
      let n1 := e.startOf dart
      let n2 := e.endOf dart
      let _ ← s.derefNode n1
      let _ ← s.derefNode n2
      if n1 = n2 then .precond
      else if ¬ h.preRemoveBridge s dart then .ok (none, s)
      else do
        let a1 := s.sigmaInv dart
        let a2 := s.sigmaInv (-dart)
        let i ← s.findComponentAnchor F.anchors dart
        let s ← s.detachDart dart
        let s ← s.detachDart (-dart)
        let s ← s.bridgeUpdate h e f F i dart a1 a2
        .ok (some f, s.uninitEdge dart.natAbs)

/-- cppmap.cxx:2070-2072: relabel one contour of the merged face -/
def relabelLoop (survivor : Nat) : Nat → GMap K → Int → Outcome (GMap K)
  | 0, _, _ => .hang
  | fuel + 1, s, d => do
    let d' := s.phi d
    let l ← s.leftLabel d'
    if l = some survivor then .ok s
    else do
      let s ← s.setLeft d' survivor
      relabelLoop survivor fuel s d'

/-- cppmap.cxx:2067-2073: relabel all contours of the merged face -/
def relabelContours (survivor : Nat) : List Int → GMap K → Outcome (GMap K)
  | [], s => .ok s
  | a :: as, s => do
    let s ← relabelLoop survivor s.fuel s a
    relabelContours survivor as s

/-- cppmap.cxx:2080-2113: contour anchors of the survivor after the merge -/
def mergedAnchors (s : GMap K) (l : Nat) (as1 as2 : List Int) (i1 i2 : Nat) : Outcome (List Int) :=
  match as1[i1]?, as2[i2]? with
  | some a1, some a2 =>
    let as1' :=
      if a1.natAbs = l then
        let b1 := s.phi a1
        if b1.natAbs = l then
          if a2.natAbs = l then
            let b2 := s.phi a2
            if b2.natAbs = l then as1.eraseIdx i1
            else as1.set i1 b2
          else as1.set i1 a2
        else as1.set i1 b1
      else as1
    .ok (if 1 < as2.length then as1' ++ as2.take i2 ++ as2.drop (i2 + 1) else as1')
  | _, _ => .ub

/-- cppmap.cxx:2041-2046: which dart's left face survives.  `a`, `b` are the areas of the left
and right face of `dart`. -/
def chooseDart (dart : Int) (left right : Option Nat) (a b : K) : Int :=
  let r := if a < b then -dart else dart
  let rRight := if a < b then left else right
  if rRight = some 0 then -r else r

/-- cppmap.cxx:2128-2134: the start node is removed if it became isolated -/
def removeIfIsolated (h : Hooks K) (s : GMap K) (n : Nat) : Outcome (GMap K) := do
  let nd ← s.derefNode n
  if nd.anchor = 0 then do
    let (_, s) ← s.removeIsolatedNode h n
    .ok s
  else .ok s

/-- cppmap.cxx:2062-2151 of `mergeFaces`, after the preconditions and `preMergeFacesHook`: face
`ml` (cell `M`) right of `r` is merged into face `sl` (cell `S`) left of `r`; `n1` is the start
node. -/
def mergeFacesApply (h : Hooks K) (s : GMap K) (r : Int) (S M : Face K) (n1 sl ml : Nat) :
    Outcome (GMap K) := do
  let s ← relabelContours sl M.anchors s
  let i1 ← s.findComponentAnchor S.anchors r
  let i2 ← s.findComponentAnchor M.anchors (-r)
  let as ← s.mergedAnchors r.natAbs S.anchors M.anchors i1 i2
  let s := s.setFace sl (some { S with anchors := as })
  let s ← s.detachDart r
  let s ← s.detachDart (-r)
  let s ← s.removeIfIsolated h n1
  let S ← s.derefFace (some sl)
  let (mArea, s) ← s.faceArea (some ml)
  let M ← s.derefFace (some ml)
  let S := { S with area := S.area.map (· + mArea), pixelArea := S.pixelArea + M.pixelArea }
  let s := s.setFace sl (some S)
  let s := s.uninitEdge r.natAbs
  .ok (s.uninitFace ml)

/-- cppmap.cxx:2036-2162 `mergeFaces`.  Result: `none` = NULL (cancelled), otherwise the label of
the surviving face. -/
def mergeFaces (h : Hooks K) (s : GMap K) (dart : Int) : Outcome (Option Nat × GMap K) := do
  let e ← s.guaranteedEdge dart
  let (a, s) ← s.faceArea (e.leftOf dart)
  let (b, s) ← s.faceArea (e.rightOf dart)
  let r := chooseDart dart (e.leftOf dart) (e.rightOf dart) a b
  let S ← s.derefFace (e.leftOf r)
  let M ← s.derefFace (e.rightOf r)
  let n1 := e.startOf r
  let _ ← s.derefNode n1
  match e.leftOf r, e.rightOf r with
  | some sl, some ml =>
    if sl = ml then .precond
    else if ¬ h.preMergeFaces s r then .ok (none, s)
    else (s.mergeFacesApply h r S M n1 sl ml).map fun s => (some sl, s)
  | _, _ => .precond

/-- cppmap.cxx:407-426 `removeEdge` -/
def removeEdge (h : Hooks K) (s : GMap K) (dart : Int) : Outcome (Option Nat × GMap K) := do
  if s.initialized then do
    let e ← s.guaranteedEdge dart
    if e.leftF = e.rightF then s.removeBridge h dart else s.mergeFaces h dart
  else do
    let s ← s.detachDart dart
    let s ← s.detachDart (-dart)
    let _ ← s.guaranteedEdge dart
    .ok (none, s.uninitEdge dart.natAbs)

end GMap
end Ordered

/-! ## Node degree queries (cppmap.hxx:1348-1403) -/

namespace GMap

/-- cppmap.hxx:1353-1361, do-while loop of `degree()` -/
def degreeLoop (s : GMap K) (anchor : Int) : Nat → Int → Nat → Outcome Nat
  | 0, _, _ => .hang
  | fuel + 1, d, acc =>
    let d' := s.sigma d
    if d' = anchor then .ok (acc + 1) else degreeLoop s anchor fuel d' (acc + 1)

/-- cppmap.hxx:1348-1362 `degree()` -/
def degree (s : GMap K) (n : Nat) : Outcome Nat := do
  let nd ← s.derefNode n
  if nd.anchor = 0 then .ok 0 else s.degreeLoop nd.anchor s.fuel nd.anchor 0

/-- cppmap.hxx:1372-1380, loop of `hasMinDegree` (`minDegree > 0` on entry) -/
def hasMinDegreeLoop (s : GMap K) (anchor : Int) : Nat → Int → Bool
  | 0, _ => true
  | 1, _ => true
  | k + 2, d =>
    let d' := s.sigma d
    if d' = anchor then false else hasMinDegreeLoop s anchor (k + 1) d'

/-- cppmap.hxx:1364-1381 `hasMinDegree` -/
def hasMinDegree (s : GMap K) (n : Nat) (minDegree : Nat) : Outcome Bool := do
  let nd ← s.derefNode n
  if nd.anchor = 0 then .ok (minDegree == 0)
  else if minDegree = 0 then .ok true
  else .ok (s.hasMinDegreeLoop nd.anchor minDegree nd.anchor)

/-- cppmap.hxx:1391-1399, loop of `hasDegree` (`exactDegree > 0` on entry) -/
def hasDegreeLoop (s : GMap K) (anchor : Int) : Nat → Int → Bool
  | 0, _ => false
  | k + 1, d =>
    let d' := s.sigma d
    if d' = anchor then k == 0 else hasDegreeLoop s anchor k d'

/-- cppmap.hxx:1383-1400 `hasDegree` -/
def hasDegree (s : GMap K) (n : Nat) (exactDegree : Nat) : Outcome Bool := do
  let nd ← s.derefNode n
  if nd.anchor = 0 then .ok (exactDegree == 0)
  else if exactDegree = 0 then .ok false
  else .ok (s.hasDegreeLoop nd.anchor exactDegree nd.anchor)

end GMap
end

end Verif.GeoMap

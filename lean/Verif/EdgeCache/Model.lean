import Verif.Polygon.Model
import Verif.SetPosition.Model
import Verif.GeoMap.Machine2

/-!
# Cached geometry of the edges of a map

A `GeoMap::Edge` is a `BBoxPolygon` (src/geomap/cppmap.hxx:75, 530-585): it caches its length, its partial area and its
bounding box (src/geomap/polygon.hxx:510-513, 707-708).  The model runs the operations of `Verif/GeoMap` and, beside
them, what they do to these polygon objects.  (A fourth cache, the scan lines, is modelled in `Verif/Scan` and `Verif/LabelImage`.)

Simplifications: those of `Verif/GeoMap/Model.lean` and `Verif/Polygon/Model.lean`.  Operations ask for lengths, areas and
boxes themselves, before they change points; such queries are separate steps of a history (`query`).  The objects of removed
edges are kept in the function `poly`, but are not observable.
-/

namespace Verif.EdgeCache
open Verif Verif.GeoMap Verif.Polygon

variable {K : Type}

/-- A map and the polygon object of each edge (cppmap.hxx:530 `class GeoMap::Edge : public Vector2Polygon`, 75 `typedef BBoxPolygon<Vector2> Vector2Polygon`) -/
structure State (K : Type) where
  map : GMap K
  poly : Nat → Poly K

/-- `GeoMap::GeoMap`: no edges -/
def State.empty : State K := ⟨GMap.empty, fun _ => ⟨[], none, none, none⟩⟩

/-- cppmap.cxx:1787-1794: label of the edge that `mergeEdges(d)` merges into the survivor `l` -/
def mergedLabel (s : GMap K) (d : Int) (l : Nat) : Nat := if l = d.natAbs then (s.sigma d).natAbs else d.natAbs

/-- cppmap.cxx:1825-1840: the arguments `atEnd`, `reverse` of `concatenate`; `m` is the merged node -/
def concatArgs (survivor merged : Edge K) (m : Nat) : Bool × Bool :=
  if survivor.startN ≠ m then (true, decide (merged.startN ≠ m)) else (false, decide (merged.startN = m))

/-- the three queries of an edge -/
inductive Query where
  | length
  | partialArea
  | boundingBox

section
variable [Field K] [LinearOrder K] (dist : Pt K → Pt K → K)

/-- the object after a query (polygon.hxx:284-304, 617-627) -/
def Query.run (p : Poly K) : Query → Poly K
  | .length => (p.length dist).2
  | .partialArea => p.partialArea.2
  | .boundingBox => p.boundingBox.2

/-- a query of edge `l` -/
def State.query (c : State K) (l : Nat) (q : Query) : State K := { c with poly := Function.update c.poly l (q.run dist (c.poly l)) }

/-- cppmap.cxx:1895-1899: `++segmentIndex; edge.insert(edge.begin() + segmentIndex, newPoint)` if a point is given -/
def insertNew (p : Poly K) (i : Nat) : Option (Pt K) → Outcome (Poly K)
  | some x => p.insert dist (i + 1) x
  | none => .ok p

/-- The operations with what they do to the polygons:
`addEdge` (cppmap.cxx:371-382) constructs the polygon from the given points, without caches (cppmap.hxx:559-573);
`mergeEdges` (1825-1840) concatenates; `splitEdge` (1895-1902) inserts a point and splits, the new edge is constructed from
the polygon that `split` returns.  No other operation touches points of edges. -/
def State.run (h : Hooks K) (c : State K) : Op K → Outcome (State K)
  | .addEdge a b pts label => do
    let (r, t) ← c.map.addEdge a b pts label
    .ok ⟨t, Function.update c.poly r (Poly.ofPoints pts)⟩
  | .mergeEdges d => do
    let m ← c.map.startLabel d
    let (r, t) ← c.map.mergeEdges h d
    match r with
    | none => .ok ⟨t, c.poly⟩
    | some l => do
      let k := mergedLabel c.map d l
      let e1 ← c.map.guaranteedEdge l
      let e2 ← c.map.guaranteedEdge k
      let a := concatArgs e1 e2 m
      .ok ⟨t, Function.update c.poly l ((c.poly l).concatenate dist (c.poly k) a.1 a.2)⟩
  | .splitEdge l i np => do
    let (r, t) ← c.map.splitEdge l i np
    let p ← insertNew dist (c.poly l) i np
    let (keep, rest) ← p.split (splitIdx i np)
    .ok ⟨t, Function.update (Function.update c.poly l keep) r rest⟩
  | op => (op.run h c.map).map fun t => ⟨t, c.poly⟩

/-- cppmap.cxx:2166-2193 `Node::setPosition` (`Verif/SetPosition`): points are written through `PointArray::operator[]`
(polygon.hxx:82-85), the caches of the edges stay as they are. -/
def State.setPosition (c : State K) (n : Nat) (p : Pt K) : Outcome (State K) :=
  (SetPosition.setPosition c.map n p).map fun t =>
    ⟨t, fun l => match t.edge l with
      | some e => { c.poly l with pts := e.pts }
      | none => c.poly l⟩

end
end Verif.EdgeCache

import Verif.GeoMap.Model

/-!
# Moving a node

Models `GeoMap::Node::setPosition` (src/geomap/cppmap.cxx:2166-2193).

Simplifications: those of `Verif/GeoMap/Model.lean`.  The update of `nodeMap_` is in `Verif/NodeIndex`.  The points are
written through `PointArray::operator[]` (polygon.hxx:82-85), which does not touch the cached length, area and
bounding box of the edge; these caches are not part of this model (see `Verif/Polygon`).
-/

namespace Verif.SetPosition
open Verif Verif.GeoMap

variable {K : Type}

/-- cppmap.cxx:2179-2187: the first point of the dart is overwritten; writing into an empty polygon is undefined -/
def setFirst (e : Edge K) (d : Int) (p : Pt K) : Outcome (Edge K) :=
  if e.pts = [] then .ub
  else if 0 < d then .ok { e with pts := e.pts.set 0 p }
  else .ok { e with pts := e.pts.set (e.pts.length - 1) p }

/-- cppmap.cxx:2177-2189: the loop over the sigma orbit -/
def loop (p : Pt K) (anchor : Int) : Nat → GMap K → Int → Outcome (GMap K)
  | 0, _, _ => .hang
  | n + 1, s, d =>
    (s.guaranteedEdge d).bind fun e =>
      (setFirst e d p).bind fun e' =>
        let t := s.setEdge d.natAbs (some e')
        let d' := t.nextSigma d
        if d' = anchor then .ok t else loop p anchor n t d'

/-- cppmap.cxx:2166-2193 `setPosition`, called for the node with the label `n`; a handle of a removed node is not
initialized. -/
def setPosition (s : GMap K) (n : Nat) (p : Pt K) : Outcome (GMap K) :=
  match s.node n with
  | none => .precond
  | some nd =>
    let t := s.setNode n (some { nd with pos := p })
    if nd.anchor = 0 then .ok t else loop p nd.anchor t.fuel t nd.anchor

end Verif.SetPosition

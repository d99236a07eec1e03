import Verif.SetPosition.Model
import Verif.Utils.Model
import Mathlib.Algebra.Order.Floor.Ring

/-!
# From crack edges to midcracks and level contours

Models `crackEdgesToMidcracks` (src/geomap/crackedgemap.cxx:253-293), `midcracksToThreshold` (crackedgemap.hxx:206-262), the marking of
the border in `CrackEdgeMapGenerator::initializeMap` (crackedgemap.cxx:239-250) and `contourLength`, `isoperimetricQuotient`
(cppmap.cxx:82-108).

Simplifications: those of `Verif/GeoMap/Model.lean`.  The cached values of the edges are left out: `edge.swap(midCrackPoints)`
(polygon.hxx:494-498, 700-704) invalidates them; `midcracksToThreshold` writes through `operator[]`, which does not.
-/

namespace Verif.Midcrack
open Verif Verif.GeoMap Verif.SetPosition

variable {K : Type} [Field K]

/-- crackedgemap.cxx:266: `(edge[i-1] + edge[i]) * 0.5` -/
def mid (p q : Pt K) : Pt K := ((p.1 + q.1) * (1 / 2), (p.2 + q.2) * (1 / 2))

/-- crackedgemap.cxx:262-267: the array, with the points from the loop -/
def midArray (moveNode : Bool) (pts : List (Pt K)) : List (Pt K) :=
  (List.range (pts.length + if moveNode then 0 else 1)).map fun i =>
    if 0 < i ∧ i < pts.length then mid (pts.getD (i - 1) (0, 0)) (pts.getD i (0, 0)) else (0, 0)

/-- crackedgemap.cxx:269-279: the first and the last point -/
def newPoints (moveNode : Bool) (pts : List (Pt K)) : Outcome (List (Pt K)) :=
  let m := midArray moveNode pts
  if moveNode then
    match m.getLast? with
    | none => .ub
    | some p => .ok (m.set 0 p)
  else
    match pts.head?, pts.getLast? with
    | some a, some b => .ok ((m.set 0 a).set (m.length - 1) b)
    | _, _ => .ub

/-- crackedgemap.cxx:255-283: one edge -/
def edgeStep (s : GMap K) (l : Nat) : Outcome (GMap K) :=
  match s.edge l with
  | none => .ok s
  | some e =>
    (if e.startN = e.endN then s.hasDegree e.startN 2 else .ok false).bind fun moveNode =>
      (newPoints moveNode e.pts).bind fun m =>
        (if moveNode then
          match m.head? with
          | none => Outcome.ub
          | some p => setPosition s e.startN p
        else .ok s).bind fun t =>
          match t.edge l with
          | none => .ub
          | some e' => .ok (t.setEdge l (some { e' with pts := m }))

/-- crackedgemap.cxx:255: the loop over the edges -/
def edgeSteps : List Nat → GMap K → Outcome (GMap K)
  | [], s => .ok s
  | l :: ls, s => (edgeStep s l).bind (edgeSteps ls)

/-- crackedgemap.cxx:285-292: `setFlag(0xC0000000U, false)` for all faces: cached areas (and bounding boxes) become invalid -/
def dropCaches (s : GMap K) : GMap K :=
  if s.initialized then { s with
    face := fun f => (s.face f).map fun F => { F with area := none } }
  else s

/-- crackedgemap.cxx:253-293 `crackEdgesToMidcracks` -/
def crackEdgesToMidcracks (s : GMap K) : Outcome (GMap K) := (edgeSteps (List.range s.nEdges) s).map dropCaches

section Threshold
variable [LinearOrder K] [IsStrictOrderedRing K] [FloorRing K] [DecidableEq K]

/-- crackedgemap.hxx:219-251: one point; `none` if the two pixels have the same value (the code divides by zero and stores an
infinite value or a NaN) -/
def thresholdPoint (size : Int × Int) (src : Int → Int → K) (threshold : K) (p : Pt K) : Option (Pt K) :=
  let ix := ⌊p.1⌋
  let iy := ⌊p.2⌋
  if ix < 0 ∨ iy < 0 then some p
  else if p.1 = ix then
    if ix ≥ size.1 ∨ iy + 1 ≥ size.2 then some p
    else
      let v1 := src ix iy
      let v2 := src ix (iy + 1)
      if v2 - v1 = 0 then none else some (p.1, iy + (threshold - v1) / (v2 - v1))
  else
    if ix + 1 ≥ size.1 ∨ iy ≥ size.2 then some p
    else
      let v1 := src ix iy
      let v2 := src (ix + 1) iy
      if v2 - v1 = 0 then none else some (ix + (threshold - v1) / (v2 - v1), p.2)

/-- cppmap.hxx: `GeoMap::Edge::BORDER_PROTECTION` -/
def borderProtection : Nat := 1

/-- crackedgemap.hxx:215-252: one edge -/
def thresholdEdge (size : Int × Int) (src : Int → Int → K) (threshold : K) (e : Edge K) : Option (Edge K) :=
  if e.flag borderProtection then some e
  else (e.pts.mapM (thresholdPoint size src threshold)).map fun pts => { e with pts := pts }

/-- crackedgemap.hxx:213-253: the loop over the edges -/
def thresholdSteps (size : Int × Int) (src : Int → Int → K) (threshold : K) : List Nat → GMap K → Option (GMap K)
  | [], s => some s
  | l :: ls, s =>
    match s.edge l with
    | none => thresholdSteps size src threshold ls s
    | some e => (thresholdEdge size src threshold e).bind fun e' => thresholdSteps size src threshold ls (s.setEdge l (some e'))

/-- crackedgemap.hxx:206-262 `midcracksToThreshold`; `none`: not all coordinates are finite numbers afterwards -/
def midcracksToThreshold (size : Int × Int) (src : Int → Int → K) (threshold : K) (s : GMap K) : Option (GMap K) :=
  (thresholdSteps size src threshold (List.range s.nEdges) s).map dropCaches

end Threshold

/-- crackedgemap.cxx:243-249: the loop around the contour -/
def markLoop (start : Int) : Nat → Int → GMap K → Outcome (GMap K)
  | 0, _, _ => .hang
  | fuel + 1, d, s =>
    (s.derefEdge d.natAbs).bind fun e =>
      let t := s.setEdge d.natAbs (some (e.setFlag borderProtection true))
      if t.phi d = start then .ok t else markLoop start fuel (t.phi d) t

/-- crackedgemap.cxx:239-250: mark the edges of the first contour of the infinite face (`vigra_assert` does nothing in release builds;
`holesBegin()` of face 0 is the first anchor, cppmap.hxx:1258-1264) -/
def markBorder (s : GMap K) : Outcome (GMap K) :=
  match s.face 0 with
  | none => .ub
  | some F =>
    match F.anchors with
    | [] => .ub
    | a :: _ => markLoop a s.fuel a s

/-- cppmap.cxx:84-92: the loop; `len` is the length of a polygon -/
def contourLengthLoop (len : List (Pt K) → K) (s : GMap K) (start : Int) : Nat → Int → K → Outcome K
  | 0, _, _ => .hang
  | fuel + 1, d, acc =>
    (s.derefEdge d.natAbs).bind fun e =>
      if s.phi d = start then .ok (acc + len e.pts) else contourLengthLoop len s start fuel (s.phi d) (acc + len e.pts)

/-- cppmap.cxx:82-92 `contourLength` -/
def contourLength (len : List (Pt K) → K) (s : GMap K) (d : Int) : Outcome K := contourLengthLoop len s d s.fuel d 0

/-- cppmap.cxx:96-105: the loop -/
def isoLoop (len : List (Pt K) → K) (s : GMap K) (start : Int) : Nat → Int → K → K → Outcome (K × K)
  | 0, _, _, _ => .hang
  | fuel + 1, d, area, length =>
    (s.derefEdge d.natAbs).bind fun e =>
      let area := if e.leftF ≠ e.rightF then area + e.areaOf d else area
      if s.phi d = start then .ok (area, length + len e.pts) else isoLoop len s start fuel (s.phi d) area (length + len e.pts)

/-- cppmap.cxx:94-108 `isoperimetricQuotient`; `none`: the code divides by zero -/
def isoperimetricQuotient [DecidableEq K] (len : List (Pt K) → K) (pi : K) (s : GMap K) (d : Int) : Outcome (Option K) :=
  (isoLoop len s d s.fuel d 0 0).map fun r => if 4 * pi * r.1 = 0 then none else some (r.2 * r.2 / (4 * pi * r.1))

end Verif.Midcrack

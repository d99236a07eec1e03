import Verif.GeoMap.ModelInit
import Verif.Polygon.Model

/-!
# Iterating over the points of darts and contours

Models `DartPointIter` (src/geomap/cppmap.hxx:697-779, cppmap.cxx:210-226), `ContourPointIter` (cppmap.hxx:977-1055) and
`contourPoly` (cppmap.cxx:110-127).  Dereferencing outside of the edge is the outcome `ub`.
-/

namespace Verif.PointIter
open Verif Verif.GeoMap

variable {K : Type}

/-- The members of a `DartPointIter` (cppmap.hxx:699-700), with the points of `edge_`. -/
structure DPI (K : Type) where
  pts : List (Pt K)
  index : Int
  inc : Int
  fin : Int
deriving DecidableEq

/-- cppmap.cxx:210-226 -/
def DPI.start (s : GMap K) (d : Int) : Outcome (DPI K) :=
  (s.guaranteedEdge d).bind fun e =>
    .ok (if 0 < d then ⟨e.pts, 0, 1, e.pts.length⟩ else ⟨e.pts, e.pts.length - 1, -1, -1⟩)

/-- cppmap.hxx:721-725 `operator++` -/
def DPI.next (i : DPI K) : DPI K := { i with index := i.index + i.inc }

/-- cppmap.hxx:739-751 `reverse` -/
def DPI.reverse (i : DPI K) : DPI K :=
  if i.inc < 0 then { i with inc := 1, fin := i.pts.length } else { i with inc := -1, fin := -1 }

/-- cppmap.hxx:757-760 `atEnd` -/
def DPI.atEnd (i : DPI K) : Bool := i.index = i.fin

/-- cppmap.hxx:770-773 `operator*`, with `PointArray::operator[]` -/
def DPI.deref (i : DPI K) : Outcome (Pt K) :=
  if i.index < 0 then .ub
  else
    match i.pts[i.index.toNat]? with
    | some p => .ok p
    | none => .ub

/-- `while(it.inRange()) { use(*it); ++it; }` with at most `n` rounds -/
def DPI.collect : Nat → DPI K → Outcome (List (Pt K))
  | 0, i => if i.atEnd then .ok [] else .hang
  | n + 1, i => if i.atEnd then .ok [] else i.deref.bind fun p => (DPI.collect n i.next).bind fun l => .ok (p :: l)

/-- The members of a `ContourPointIter` (cppmap.hxx:979-980). -/
structure CPI (K : Type) where
  dpi : DPI K
  dart : Int
  fin : Int
deriving DecidableEq

/-- cppmap.hxx:999-1006 -/
def CPI.start (s : GMap K) (d : Int) (firstTwice : Bool) : Outcome (CPI K) :=
  (DPI.start s d).bind fun i => .ok ⟨if firstTwice then i else i.next, d, d⟩

/-- cppmap.hxx:1008-1020 `operator++`; `nextPhi` changes `dart_` -/
def CPI.next (s : GMap K) (c : CPI K) : Outcome (CPI K) :=
  if c.dpi.next.atEnd then
    if s.phi c.dart ≠ c.fin then (DPI.start s (s.phi c.dart)).bind fun i => .ok ⟨i.next, s.phi c.dart, c.fin⟩
    else .ok ⟨c.dpi.next, s.phi c.dart, c.fin⟩
  else .ok { c with dpi := c.dpi.next }

/-- `while(it.inRange()) { use(*it); ++it; }` with at most `n` rounds -/
def CPI.collect (s : GMap K) : Nat → CPI K → Outcome (List (Pt K))
  | 0, c => if c.dpi.atEnd then .ok [] else .hang
  | n + 1, c => if c.dpi.atEnd then .ok [] else
      c.dpi.deref.bind fun p => (c.next s).bind fun c' => (CPI.collect s n c').bind fun l => .ok (p :: l)

section
variable [Field K] [LinearOrder K] (dist : Pt K → Pt K → K)

/-- The loop of `contourPoly` (cppmap.cxx:114-125); the copies of the edges have no cached values. -/
def contourPolyLoop (s : GMap K) (start : Int) : Nat → Int → Polygon.Poly K → Outcome (Polygon.Poly K)
  | 0, _, _ => .hang
  | n + 1, d, acc =>
    (s.guaranteedEdge d).bind fun e =>
      let acc := if d < 0 then acc.extend dist (Polygon.Poly.ofPoints e.pts).reverse
        else acc.extend dist (Polygon.Poly.ofPoints e.pts)
      if s.phi d = start then .ok acc else contourPolyLoop s start n (s.phi d) acc

/-- `contourPoly` (cppmap.cxx:110-127) -/
def contourPoly (s : GMap K) (d : Int) : Outcome (Polygon.Poly K) :=
  contourPolyLoop dist s d s.fuel d Polygon.Poly.default

end

end Verif.PointIter

import Verif.GeoMap.Machine2
import Verif.Scan.Model
import Verif.LabelLUT.Model

/-!
# The label image

Models the parts of `GeoMap` that keep the label image, the table of face labels and the cached
scanlines of the edges up to date: src/geomap/cppmap.cxx:976-1026, 1199-1253, 1673-1767 and the label
image parts of the Euler operations, cppmap.cxx:1769-2162.

Simplifications: the combinatorial part of each operation is the function of `Verif/GeoMap`; the label
image part runs after it here, while in the code it is interleaved (neither part reads what the other
writes).  Callbacks see the combinatorial part only.  An image is a function of the position; positions
outside the image are never written.  `int` is unbounded.  `Edge::boundingBox()` is the exact range of the
points (see `Verif/Polygon` for where the cached one is not).
-/

namespace Verif.LabelImage
open Verif Verif.GeoMap Verif.Scan Verif.LabelLUT

/-- `LabelImage` (cppmap.cxx:976): negative values count crossing edges. -/
abbrev Img := Int × Int → Int

/-- `GeoMap` with label image (cppmap.hxx:186-214).  `img = none`: `labelImage_` is NULL.  `scan l`:
`scanLines_` of edge `l` (cppmap.hxx:549). -/
structure LMap (K : Type) where
  g : GMap K
  w : Nat
  h : Nat
  img : Option Img
  lut : LUT
  scan : Nat → Option Lines

section
variable {K : Type} [Field K] [LinearOrder K] [FloorRing K]

/-- Least ordinate of the points (polygon.hxx:617-627). -/
def yMin : List (Pt K) → K
  | [] => 0
  | p :: l => l.foldl (fun a q => min a q.2) p.2

/-- Greatest ordinate of the points (polygon.hxx:617-627). -/
def yMax : List (Pt K) → K
  | [] => 0
  | p :: l => l.foldl (fun a q => max a q.2) p.2

/-- `scanPoly(*this)` (cppmap.hxx:690). -/
def edgeLines (pts : List (Pt K)) : Lines := scanPolyBox pts (yMin pts) (yMax pts)

/-- `Edge::scanLines()` (cppmap.hxx:687-692): the cached lines, otherwise those of the points. -/
def LMap.lines (m : LMap K) (l : Nat) (e : Edge K) : Lines := (m.scan l).getD (edgeLines e.pts)

/-- Setting the cached lines of an edge (cppmap.hxx:690). -/
def LMap.setScan (m : LMap K) (l : Nat) (x : Option Lines) : LMap K :=
  { m with scan := Function.update m.scan l x }

end

/-! ## Pixel loops

The loops of `rawAddEdgeToLabelImage`, `markEdgeInLabelImage` and `removeEdgeFromLabelImage` visit the
pixels that `drawScannedPoly` draws: same clipping (cppmap.cxx:1677-1692, 1703-1719, 1736-1752). -/

/-- `rawAddEdgeToLabelImage` (cppmap.cxx:1673-1697) on the visited pixels. -/
def rawAdd (diff : Int) (im : Img) (px : List (Int × Int)) : Img :=
  px.foldl (fun im p => Function.update im p (im p + diff)) im

/-- `markEdgeInLabelImage` (cppmap.cxx:1699-1727) on the visited pixels. -/
def markEdge (im : Img) (px : List (Int × Int)) : Img :=
  px.foldl (fun im p => Function.update im p (if 0 ≤ im p then -1 else im p - 1)) im

/-- `removeEdgeFromLabelImage` (cppmap.cxx:1729-1767) on the visited pixels: the image and
`outputPixels`. -/
def unmarkEdge (label : Nat) (im : Img) (px : List (Int × Int)) : Img × List (Int × Int) :=
  px.foldl (fun r p =>
    if r.1 p ≠ -1 then (Function.update r.1 p (r.1 p + 1), r.2)
    else (Function.update r.1 p label, r.2 ++ [p])) (im, [])

/-- The pixels set by `fillScannedPoly` (polygon.hxx:2097-2102). -/
def fillImg (label : Nat) (im : Img) (px : List (Int × Int)) : Img :=
  px.foldl (fun im p => Function.update im p (label : Int)) im

/-- `LabelImageAccessor` (cppmap.hxx:151-181): the value reported for a pixel. -/
def resolve (lut : LUT) (v : Int) : Outcome Int :=
  if 0 ≤ v then (lookup lut v.toNat).map fun r : Nat => (r : Int) else .ok v

section
variable {K : Type} [Field K] [LinearOrder K] [FloorRing K]

namespace LMap

/-- The pixels visited for an edge. -/
def pixels (m : LMap K) (l : Lines) : List (Int × Int) := drawScannedPoly l m.w m.h

/-- `associatePixels` (cppmap.cxx:1952-1958), called if there are pixels (cppmap.cxx:2029-2031,
2157-2159). -/
def associate (g : GMap K) (f : Nat) (px : List (Int × Int)) : Outcome (GMap K) :=
  if px = [] then .ok g
  else do
    let F ← g.derefFace (some f)
    .ok (g.setFace f (some { F with pixelArea := F.pixelArea + px.length }))

/-- `removeBridge` (cppmap.cxx:1960-2034).  Result: the face, the map, the pixels passed to
`associatePixels`. -/
def removeBridge (h : Hooks K) (m : LMap K) (dart : Int) :
    Outcome (Option Nat × LMap K × List (Int × Int)) := do
  let e ← m.g.guaranteedEdge dart
  let (r, g) ← m.g.removeBridge h dart
  match r, m.img with
  | some f, some im =>
    let u := unmarkEdge f im (m.pixels (m.lines dart.natAbs e))
    let g ← associate g f u.2
    .ok (r, { m with g := g, img := some u.1 }, u.2)
  | _, _ => .ok (r, { m with g := g }, [])

/-- The face label on the other side of the edge: `mergedFace` (cppmap.cxx:2050) when `survivor` is
known. -/
def otherFace (e : Edge K) (sl : Nat) : Option Nat := if e.leftF = some sl then e.rightF else e.leftF

/-- `mergeFaces` (cppmap.cxx:2036-2162). -/
def mergeFaces (h : Hooks K) (m : LMap K) (dart : Int) :
    Outcome (Option Nat × LMap K × List (Int × Int)) := do
  let e ← m.g.guaranteedEdge dart
  let (r, g) ← m.g.mergeFaces h dart
  match r, m.img with
  | some sl, some im =>
    match otherFace e sl with
    | none => .precond
    | some ml => do
      let lut ← relabel m.lut ml sl
      let u := unmarkEdge sl im (m.pixels (m.lines dart.natAbs e))
      let g ← associate g sl u.2
      .ok (r, { m with g := g, lut := lut, img := some u.1 }, u.2)
  | _, _ => .ok (r, { m with g := g }, [])

/-- `removeEdge` (cppmap.cxx:407-426) on an initialized map. -/
def removeEdge (h : Hooks K) (m : LMap K) (dart : Int) :
    Outcome (Option Nat × LMap K × List (Int × Int)) := do
  let e ← m.g.guaranteedEdge dart
  if e.leftF = e.rightF then m.removeBridge h dart else m.mergeFaces h dart

/-- The arguments `reverse` of the two calls of `concatenate` (cppmap.cxx:1825-1840); `n` is the merged
node. -/
def concatReverse (e1 e2 : Edge K) (n : Nat) : Bool :=
  if e1.startN ≠ n then decide (e2.startN ≠ n) else decide (e2.startN = n)

/-- The last part of `Edge::concatenate` (cppmap.cxx:201-206); `a` are the lines of this edge, `b` those
of the other. -/
def concatLines (a b : Lines) (reverse : Bool) : Lines := a.add (if reverse then b.reverse else b)

/-- The label of the edge that disappears in `mergeEdges` when edge `l` survives. -/
def mergedLabel (g : GMap K) (dart : Int) (l : Nat) : Nat :=
  if l = dart.natAbs then (g.sigma dart).natAbs else dart.natAbs

/-- `mergeEdges` (cppmap.cxx:1769-1871).  Without a label image, `concatenate` dereferences `scanLines_`
of the other edge if this edge has cached lines and the direction is opposite. -/
def mergeEdges (h : Hooks K) (m : LMap K) (dart : Int) : Outcome (Option Nat × LMap K) := do
  let n ← m.g.startLabel dart
  let (r, g) ← m.g.mergeEdges h dart
  match r with
  | none => .ok (none, { m with g := g })
  | some l => do
    let k := mergedLabel m.g dart l
    let e1 ← m.g.guaranteedEdge l
    let e2 ← m.g.guaranteedEdge k
    let rev := concatReverse e1 e2 n
    match m.img with
    | some im =>
      let a := m.lines l e1
      let b := m.lines k e2
      let c := concatLines a b rev
      let im := rawAdd 1 (rawAdd 1 im (m.pixels b)) (m.pixels a)
      let im := rawAdd (-1) im (m.pixels c)
      .ok (r, { m with
        g := g
        img := some im
        scan := Function.update m.scan l (some c) })
    | none =>
      match m.scan l with
      | none => .ok (r, { m with g := g })
      | some a =>
        match rev, m.scan k with
        | true, none => .ub
        | _, _ => .ok (r, { m with
            g := g
            scan := Function.update m.scan l (some (concatLines a (m.lines k e2) rev)) })

/-- `splitEdge` (cppmap.cxx:1873-1950).  Without a label image the cached lines of the edge stay. -/
def splitEdge (m : LMap K) (l i : Nat) (np : Option (Pt K)) : Outcome (Nat × LMap K) := do
  let e ← m.g.guaranteedEdge l
  let (r, g) ← m.g.splitEdge l i np
  let e1 ← g.guaranteedEdge l
  let e2 ← g.guaranteedEdge r
  match m.img with
  | some im =>
    let im := rawAdd 1 im (m.pixels (m.lines l e))
    let im := rawAdd (-1) im (m.pixels (edgeLines e1.pts))
    let im := rawAdd (-1) im (m.pixels (edgeLines e2.pts))
    .ok (r, { m with
      g := g
      img := some im
      scan := Function.update (Function.update m.scan l (some (edgeLines e1.pts))) r
        (some (edgeLines e2.pts)) })
  | none => .ok (r, { m with
      g := g
      scan := Function.update m.scan r none })

/-! ## Switching the label image on -/

/-- The loop of `Face::scanLines()` (cppmap.hxx:1217-1231). -/
def contourLines (m : LMap K) (start : Int) : Nat → Int → Lines → Outcome Lines
  | 0, _, _ => .hang
  | fuel + 1, d, acc => do
    let e ← m.g.guaranteedEdge d
    let l := m.lines d.natAbs e
    let acc := acc.merge (if 0 < d then l else l.reverse)
    let d' := m.g.phi d
    if d' = start then .ok acc else contourLines m start fuel d' acc

/-- `Face::scanLines()` (cppmap.hxx:1209-1236).  The lines allocated for the bounding box are left out:
`merge` adds missing lines. -/
def faceLines (m : LMap K) (F : Face K) : Outcome Lines :=
  match F.anchors with
  | [] => .ub
  | a :: _ => do
    let e ← m.g.guaranteedEdge a
    let r ← m.contourLines a m.g.fuel a (Lines.empty (m.lines a.natAbs e).start 0)
    .ok r.normalize

/-- The loop over the finite faces (cppmap.cxx:995-1002), for the labels given. -/
def fillFaces (m : LMap K) : List Nat → GMap K × Img → Outcome (GMap K × Img)
  | [], r => .ok r
  | f :: fs, (g, im) =>
    match g.face f with
    | none => fillFaces m fs (g, im)
    | some F => do
      let l ← m.faceLines F
      let px := fillScannedPoly l m.w m.h
      let _ ← px.2
      fillFaces m fs (g.setFace f (some { F with pixelArea := 0 }), fillImg f im px.1)

/-- The loop over the edges (cppmap.cxx:1004-1006), for the labels given. -/
def markEdges (m : LMap K) : List Nat → Img → Img
  | [], im => im
  | l :: ls, im =>
    match m.g.edge l with
    | none => markEdges m ls im
    | some e => markEdges m ls (markEdge im (m.pixels (m.lines l e)))

/-- Counting the pixels of the faces (cppmap.cxx:1008-1019). -/
def countPixels (im : Img) : List (Int × Int) → GMap K → Outcome (GMap K)
  | [], g => .ok g
  | p :: ps, g =>
    if 0 ≤ im p then do
      let F ← g.derefFace (some (im p).toNat)
      countPixels im ps (g.setFace (im p).toNat (some { F with pixelArea := F.pixelArea + 1 }))
    else countPixels im ps g

/-- The pixels of the image in scan order (cppmap.cxx:1009-1013). -/
def allPixels (w h : Nat) : List (Int × Int) :=
  (cols 0 h).flatMap fun y => (cols 0 w).map fun x => (x, y)

/-- `scanLines()` has been called for every edge (cppmap.cxx:1005). -/
def cacheAll (m : LMap K) : Nat → Option Lines := fun l =>
  match m.g.edge l with
  | none => m.scan l
  | some e => some (m.lines l e)

/-- `setHasLabelImage(onoff)` (cppmap.cxx:982-1026). -/
def setHasLabelImage (m : LMap K) (onoff : Bool) : Outcome (LMap K) :=
  match onoff, m.img with
  | true, some _ => .ok m
  | false, none => .ok m
  | false, some _ => .ok { m with img := none }
  | true, none =>
    if m.w * m.h = 0 then .precond
    else do
      let (g, im) ← m.fillFaces (List.range' 1 (m.g.nFaces - 1)) (m.g, fun _ => 0)
      let im := m.markEdges (List.range m.g.nEdges) im
      let g ← countPixels im (allPixels m.w m.h) g
      .ok { m with
        g := g
        img := some im
        lut := LabelLUT.init m.g.nFaces
        scan := m.cacheAll }

/-! ## Renaming faces -/

/-- `transformMultiArray` with `labelAccessor` and `LookupNewLabel` (cppmap.cxx:1199-1214, 1249-1251), for the
pixels given. -/
def renamePixels (new : List Nat) (lut : LUT) : List (Int × Int) → Img → Outcome Img
  | [], im => .ok im
  | p :: ps, im => do
    let v ← resolve lut (im p)
    if 0 ≤ v then
      match new[v.toNat]? with
      | none => .ub
      | some t => renamePixels new lut ps (Function.update im p (t : Int))
    else renamePixels new lut ps (Function.update im p v)

/-- `changeFaceLabels` (cppmap.cxx:1216-1253): returned normally, the map, `label_` of each face. -/
def changeFaceLabels (m : LMap K) (new : List Nat) (size : Nat) : Outcome (Bool × LMap K × (Nat → Nat)) := do
  let r ← m.g.changeFaceLabels new size
  if r.done then
    match m.img with
    | some im => do
      let im' ← renamePixels new m.lut (allPixels m.w m.h) im
      .ok (true, { m with g := r.map, img := some im', lut := LabelLUT.init size }, r.label)
    | none => .ok (true, { m with g := r.map }, r.label)
  else .ok (false, m, r.label)

/-! ## Queries -/

/-- `intVPos` (vigra: nearest pixel), used in cppmap.cxx:316 and cppmap.hxx:1171. -/
def pixelOf (p : Pt K) : Int × Int := (⌊p.1 + 1 / 2⌋, ⌊p.2 + 1 / 2⌋)

end LMap
end

end Verif.LabelImage

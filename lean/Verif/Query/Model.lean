import Verif.LabelImage.Spec
import Verif.PointIter.Model

/-!
# Which face contains a point: `Face::boundingBox`, `Face::contains`, `GeoMap::faceAt`

Models src/geomap/cppmap.hxx:1148-1187, cppmap.cxx:309-353 and the bounding box part of `mergeFaces`, cppmap.cxx:2060-2063 and 2148-2149.

Simplifications: the bounding boxes of the faces are a table beside the map, updated after the rest of an operation (in the code the two
are interleaved; neither part reads what the other writes, as the box of the merged face is computed before the contours change).
`Edge::boundingBox()` is the exact box of the points (see `Verif/Polygon` for where the cached one is not).  A box is closed.
-/

namespace Verif.Query
open Verif Verif.GeoMap Verif.Polygon Verif.LabelImage Verif.LabelLUT

variable {K : Type}

/-- `boundingBox_` of the faces with flag `BOUNDING_BOX_VALID` (cppmap.hxx:1089, 1295). -/
abbrev Boxes (K : Type) := Nat → Option (Box K)

section
variable [Field K] [LinearOrder K]

/-- `Edge::boundingBox()` (polygon.hxx:617-627). -/
def edgeBox (pts : List (Pt K)) : Box K := (Poly.ofPoints pts).boundingBox.1

/-- The loop of `Face::boundingBox()` (cppmap.hxx:1155-1160). -/
def boxLoop (g : GMap K) (anchor : Int) : Nat → Int → Box K → Outcome (Box K)
  | 0, _, _ => .hang
  | n + 1, d, b => do
    let e ← g.guaranteedEdge d
    let b := boxUnion b (edgeBox e.pts)
    if g.phi d = anchor then .ok b else boxLoop g anchor n (g.phi d) b

/-- `Face::boundingBox()` (cppmap.hxx:1148-1164) of a face in the map. -/
def faceBox (g : GMap K) (b : Boxes K) (f : Nat) : Outcome (Box K × Boxes K) :=
  if f = 0 then .precond
  else match b f with
    | some x => .ok (x, b)
    | none => do
      let F ← g.derefFace (some f)
      match F.anchors with
      | [] => .ub
      | a :: _ => do
        let x ← boxLoop g a g.fuel a none
        .ok (x, Function.update b f (some x))

/-- The boxes after `mergeFaces` (cppmap.cxx:2060-2063, 2148-2149) has merged face `ml` into `sl`; `g` and `b` are the map and the boxes before. -/
def mergeBoxes (g : GMap K) (b : Boxes K) (sl ml : Nat) : Outcome (Boxes K) :=
  match b sl with
  | none => .ok (Function.update b ml none)
  | some x => do
    let (y, _) ← faceBox g b ml
    .ok (Function.update (Function.update b ml none) sl (some (boxUnion x y)))

/-- The boxes after removing an edge: they change if two faces have been merged. -/
def boxesAfter (g : GMap K) (b : Boxes K) (d : Int) : Option Nat → Outcome (Boxes K)
  | none => .ok b
  | some sl => do
    let e ← g.guaranteedEdge d
    if e.leftF = e.rightF then .ok b
    else match LMap.otherFace e sl with
      | none => .ub
      | some ml => mergeBoxes g b sl ml

/-- Whether one of the contours contains the point (cppmap.hxx:1184-1186). -/
def anyContains (g : GMap K) (c : Pt K) : List Int → Outcome Bool
  | [] => .ok false
  | a :: as => do
    let p ← PointIter.contourPoly (fun _ _ => 0) g a
    if ← p.bboxContains c then .ok true else anyContains g c as

variable [FloorRing K]

/-- The positive label of the pixel of a point (cppmap.hxx:1169-1177, cppmap.cxx:314-323). -/
def pixelLabel (m : LMap K) (c : Pt K) : Option Nat :=
  match m.img with
  | none => none
  | some im =>
    let p := LMap.pixelOf c
    if 0 ≤ p.1 ∧ p.1 < m.w ∧ 0 ≤ p.2 ∧ p.2 < m.h then
      if 0 < im p then some (im p).toNat else none
    else none

/-- `Face::contains` (cppmap.hxx:1166-1188) of face `f`. -/
def faceContains (m : LMap K) (b : Boxes K) (f : Nat) (c : Pt K) : Outcome (Bool × Boxes K) :=
  match m.g.face f with
  | none => .precond
  | some F =>
    match pixelLabel m c with
    | some l => (lookup m.lut l).map fun k => (decide (k = f), b)
    | none =>
      if f = 0 then (anyContains m.g c F.anchors).map fun r => (!r, b)
      else do
        let (x, b) ← faceBox m.g b f
        if inBox x c = false then .ok (false, b)
        else match F.anchors with
          | [] => .ub
          | a :: as => do
            let p ← PointIter.contourPoly (fun _ _ => 0) m.g a
            if ← p.bboxContains c then (anyContains m.g c as).map fun r => (!r, b)
            else .ok (false, b)

/-- The loop of `faceAt` (cppmap.cxx:325-329), for the labels given. -/
def firstContaining (m : LMap K) (c : Pt K) : List Nat → Boxes K → Outcome (Nat × Boxes K)
  | [], b => .ok (0, b)
  | f :: fs, b =>
    match m.g.face f with
    | none => firstContaining m c fs b
    | some _ => do
      let (r, b) ← faceContains m b f c
      if r then .ok (f, b) else firstContaining m c fs b

/-- `GeoMap::faceAt` (cppmap.cxx:309-330): the label of the face. -/
def faceAt (m : LMap K) (b : Boxes K) (c : Pt K) : Outcome (Nat × Boxes K) :=
  if m.g.nFaces = 0 then .precond
  else match pixelLabel m c with
    | some l => (lookup m.lut l).map fun k => (k, b)
    | none => firstContaining m c (List.range' 1 (m.g.nFaces - 1)) b

/-- An operation on the map and the boxes of the faces. -/
def run (h : Hooks K) (m : LMap K) (b : Boxes K) : LOp K → Outcome (LMap K × Boxes K)
  | .mergeFaces d => do
    let r ← m.mergeFaces h d
    let b ← boxesAfter m.g b d r.1
    .ok (r.2.1, b)
  | .removeEdge d => do
    let r ← m.removeEdge h d
    let b ← boxesAfter m.g b d r.1
    .ok (r.2.1, b)
  | op => (op.run h m).map fun n => (n, b)

/-- `changeFaceLabels` (cppmap.cxx:1216-1253) moves the faces with their boxes. -/
def renameBoxes (g : GMap K) (new : List Nat) (b : Boxes K) : Boxes K := fun k =>
  ((List.range g.nFaces).find? fun l => (g.face l).isSome && (new[l]? == some k)).bind b

end

end Verif.Query

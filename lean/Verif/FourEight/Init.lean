import Verif.FourEight.Model

/-!
# The pixel based map: construction from a cell image (foureightsegmentation.cxx:81-124, 901-1212)

Parameters of the model (code of VIGRA that is not modelled): the areas enclosed by the crack contours of the nodes and the labels of the
regions along them (`CrackContourCirculator`), and the labels of the connected contour components (`labelImageWithBackground`).
-/

namespace Verif.FourEight
open Verif Verif.CellImage

/-- what VIGRA's functions found -/
structure Oracle where
  /-- `crackCirculatedAreas` (foureightsegmentation.cxx:939-948) -/
  crackArea : Nat → Nat
  /-- `outerRegions` (foureightsegmentation.cxx:976-985) -/
  outerRegions : Nat → List Nat
  /-- `contourLabelImage` (foureightsegmentation.cxx:1071-1075) -/
  contour : Int → Int → Nat
  /-- `contourComponentsCount` -/
  components : Nat

/-- running through a list -/
def foldO {α β : Type} (f : β → α → Outcome β) : List α → β → Outcome β
  | [], b => .ok b
  | a :: as, b => (f b a).bind (foldO f as)

/-- the pixels visited by `for(pos.y = -1; pos.y < height - 3; ...) for(pos.x = -1; pos.x < width - 3; ...)`
(foureightsegmentation.cxx:906-910 and 1091-1097) -/
def innerPixels (w h : Nat) : List (Int × Int) :=
  (List.range (h - 2)).flatMap fun j : Nat => (List.range (w - 2)).map fun i : Nat => ((i : Int) - 1, (j : Int) - 1)

/-- all pixels, in raster order -/
def allPixels (w h : Nat) : List (Int × Int) :=
  (List.range h).flatMap fun j : Nat => (List.range w).map fun i : Nat => ((i : Int) - 2, (j : Int) - 2)

/-- foureightsegmentation.cxx:89-94 `inspectImageIf` with `FindMaxLabel`: the largest label of pixels of a type (0 if there is none) -/
def maxLabel (m : Map) (t : CellType) : Nat :=
  (allPixels m.w m.h).foldl (fun a p => if (m.px p.1 p.2).1 = t then max a (m.px p.1 p.2).2 else a) 0

/-- a dart with null pointers (`DartTraverser()`) -/
def noDart : Dart := ⟨0, 0, 0⟩

def emptyRect : Rect := ⟨0, 0, 0, 0⟩

/-- foureightsegmentation.cxx:930-935 and hxx:446-464: `do ++degree; while(dart.nextSigma() != anchor)`; `unsigned short` -/
def countDegree (m : Map) (anchor : Dart) : Nat → Dart → Nat → Outcome Nat
  | 0, _, _ => .hang
  | n + 1, d, deg =>
    (sigma m 1 d).bind fun d' => (dartEq m d' anchor).bind fun b =>
      if b then .ok ((deg + 1) % 65536) else countDegree m anchor n d' ((deg + 1) % 65536)

/-- body of the loop in foureightsegmentation.cxx:912-953 (`initNodeList`) -/
def initNode (m : Map) (p : Int × Int) : Outcome Map :=
  if (m.px p.1 p.2).1 ≠ .vertex then .ok m else
  let l := (m.px p.1 p.2).2
  match m.nodes[l]? with
  | none => .precond
  | some N =>
    (if N.live then .ok m
    else
      (mkDart m ⟨p.1, p.2, 4⟩).bind fun a =>
      (isSingular m a).bind fun s =>
      (if s then .ok 0 else countDegree m a m.fuel a 0).bind fun deg =>
      .ok { m with
        nodes := m.nodes.modify l fun N => { N with live := true, degree := deg, anchor := a }
        nodeCount := addU m.nodeCount 1 }).bind fun m1 =>
    .ok { m1 with nodes := m1.nodes.modify l fun N => { N with box := N.box.add p, size := addU N.size 1 } }

/-- pixels of a rectangle -/
def rectPixels (r : Rect) : List (Int × Int) :=
  (List.range (r.y1 - r.y0).toNat).flatMap fun j : Nat => (List.range (r.x1 - r.x0).toNat).map fun i : Nat => (r.x0 + i, r.y0 + j)

/-- foureightsegmentation.cxx:1005-1011: all pixels of cell `c` in the bounds of node `l` become pixels of the node -/
def fillHole (m : Map) (l : Nat) (c : Pixel) : Map :=
  match m.nodes[l]? with
  | none => m
  | some N =>
    let pts := (rectPixels N.box).filter fun p => m.px p.1 p.2 = c
    { m with
      px := paint m.px pts (.vertex, l)
      nodes := m.nodes.modify l fun N => { N with size := addU N.size pts.length } }

/-- foureightsegmentation.cxx:995-1024: one line of the bounds, from column `x` on; the flag tells that all holes are stuffed -/
def stuffRow (o : Oracle) (l : Nat) (box : Rect) (y : Int) : Nat → Int → Map → Outcome (Map × Bool)
  | 0, _, m => .ok (m, false)
  | n + 1, x, m =>
    if box.x1 - 1 ≤ x then .ok (m, false)
    else (m.get x y).bind fun p =>
      if p = (.vertex, l) then
        (m.get (x + 1) y).bind fun q =>
          if q.1 = .region ∧ q.2 ∉ o.outerRegions l then
            let m' := fillHole m l q
            match m'.nodes[l]? with
            | none => .ub
            | some N => if o.crackArea l = N.size then .ok (m', true) else stuffRow o l box y n (x + 2) m'
          else stuffRow o l box y n (x + 1) m
      else stuffRow o l box y n (x + 1) m

/-- foureightsegmentation.cxx:993-1028: the lines of the bounds -/
def stuffRows (o : Oracle) (l : Nat) (box : Rect) : List Int → Map → Outcome Map
  | [], m => .ok m
  | y :: ys, m => (stuffRow o l box y (box.x1 - box.x0).toNat box.x0 m).bind fun r => if r.2 then .ok r.1 else stuffRows o l box ys r.1

/-- foureightsegmentation.cxx:957-1032: holes of one node.  Simplified: the search for a pixel of the node in the first line of its bounds
(only used to start the crack contour) is left out. -/
def stuffNode (o : Oracle) (m : Map) (l : Nat) : Outcome Map :=
  match m.nodes[l]? with
  | none => .ok m
  | some N =>
    if !N.live then .ok m
    else if o.crackArea l = N.size then .ok m
    else stuffRows o l N.box ((List.range (N.box.y1 - N.box.y0).toNat).map fun j : Nat => N.box.y0 + (j : Int)) m

/-- foureightsegmentation.cxx:901-1034 `initNodeList` -/
def initNodeList (o : Oracle) (m : Map) (maxNode : Nat) : Outcome Map :=
  (foldO initNode (innerPixels m.w m.h)
    { m with nodes := List.replicate (maxNode + 1) ⟨false, emptyRect, 0, noDart, 0⟩ }).bind fun m1 =>
  foldO (stuffNode o) (List.range m1.nodes.length) m1

/-- foureightsegmentation.cxx:1046-1060: one dart of a node -/
def initEdge (m : Map) (d : Dart) : Outcome Map :=
  (edgeLabel m d).bind fun l =>
  match m.edges[l]? with
  | none => .precond
  | some E =>
    if E.live then .ok m
    else (alpha m d).bind fun e =>
      .ok { m with
        edges := m.edges.modify l fun E => { E with live := true, start := d, stop := e, size := 0 }
        edgeCount := addU m.edgeCount 1 }

/-- foureightsegmentation.cxx:1044-1078: all darts of a node -/
def initEdges (anchor : Dart) : Nat → Dart → Map → Outcome Map
  | 0, _, _ => .hang
  | n + 1, d, m =>
    (initEdge m d).bind fun m' =>
    (sigma m' 1 d).bind fun d' => (dartEq m' d' anchor).bind fun b => if b then .ok m' else initEdges anchor n d' m'

/-- body of the loop over the nodes in foureightsegmentation.cxx:1041-1079 -/
def initNodeEdges (m : Map) (l : Nat) : Outcome Map :=
  match m.nodes[l]? with
  | none => .ok m
  | some N =>
    if !N.live then .ok m
    else (isSingular m N.anchor).bind fun s => if s then .ok m else initEdges N.anchor m.fuel N.anchor m

/-- foureightsegmentation.cxx:1036-1079 `initEdgeList` -/
def initEdgeList (m : Map) (maxEdge : Nat) : Outcome Map :=
  foldO initNodeEdges (List.range m.nodes.length) { m with edges := List.replicate (maxEdge + 1) ⟨false, emptyRect, 0, noDart, noDart⟩ }

/-- foureightsegmentation.cxx:1119-1152 and 1172-1200: the anchor of a contour of face `f`, found at pixel `(x, y)`; `d` is the
circulator at the node, if the pixel belongs to one -/
def contourAnchor (m : Map) (f : Nat) (x y : Int) (d : Dart) : Outcome Dart :=
  (m.get x y).bind fun p =>
    if p.1 = .vertex then
      (mkDart m d).bind fun a => (sigma m 7 a).bind fun a => (leftFace m a).bind fun l => if l = f then .ok a else .precond
    else if p.1 = .line then
      match m.edges[p.2]? with
      | none => .ub
      | some E =>
        if !E.live then .precond
        else (leftFace m E.start).bind fun l => (if l ≠ f then alpha m E.start else .ok E.start).bind fun a =>
          (leftFace m a).bind fun l' => if l' = f then .ok a else .precond
    else .precond

/-- state of `initFaceList`: the map and `contourProcessed` -/
abbrev FaceState := Map × List Bool

/-- foureightsegmentation.cxx:1160-1203: one neighbour of a pixel of a known face -/
def innerContour (o : Oracle) (f : Nat) (p : Int × Int) (st : FaceState) (k : Fin 8) : Outcome FaceState :=
  let x := p.1 + dx k
  let y := p.2 + dy k
  let c := o.contour x y
  if c = 0 then .ok st
  else match st.2[c]? with
    | none => .ub
    | some true => .ok st
    | some false =>
      (contourAnchor st.1 f x y (Dart.swap ⟨p.1, p.2, k⟩)).bind fun a =>
      .ok ({ st.1 with faces := st.1.faces.modify f fun F => { F with contours := F.contours ++ [a] } }, st.2.set c true)

/-- body of the loop in foureightsegmentation.cxx:1099-1210 -/
def initFace (o : Oracle) (st : FaceState) (p : Int × Int) : Outcome FaceState :=
  let q := st.1.px p.1 p.2
  if q.1 ≠ .region then
    if q.1 = .line then
      match st.1.edges[q.2]? with
      | none => .ub
      | some _ => .ok ({ st.1 with edges := st.1.edges.modify q.2 fun E => { E with box := E.box.add p, size := addU E.size 1 } }, st.2)
    else .ok st
  else match st.1.faces[q.2]? with
    | none => .precond
    | some F =>
      (if !F.live then
        (contourAnchor st.1 q.2 (p.1 - 1) p.2 ⟨p.1 - 1, p.2, 0⟩).bind fun a =>
        .ok ({ st.1 with
            faces := st.1.faces.modify q.2 fun F => { F with live := true, contours := F.contours ++ [a] }
            faceCount := addU st.1.faceCount 1 }, st.2)
      else foldO (innerContour o q.2 p) [0, 1, 2, 3, 4, 5, 6, 7] st).bind fun st1 =>
      .ok ({ st1.1 with faces := st1.1.faces.modify q.2 fun F => { F with box := F.box.add p, size := addU F.size 1 } }, st1.2)

/-- foureightsegmentation.cxx:1066-1212 `initFaceList` -/
def initFaceList (o : Oracle) (m : Map) (maxFace : Nat) : Outcome Map :=
  (mkDart m ⟨-1, -1, 4⟩).bind fun a => (sigma m 7 a).bind fun a =>
  let outer : Face := ⟨true, (emptyRect.add (-2, -2)).add ((m.w : Int) - 3, (m.h : Int) - 3), 2 ^ 32 - 1, [a]⟩
  (foldO (initFace o) (innerPixels m.w m.h)
    ({ m with
        faces := outer :: List.replicate maxFace ⟨false, emptyRect, 0, []⟩
        faceCount := addU m.faceCount 1 },
      (List.replicate (o.components + 1) false).set (o.contour (-1) (-1)) true)).bind fun st => .ok st.1

/-- foureightsegmentation.cxx:81-124 `GeoMap(const CellImage &importImage)` -/
def construct (o : Oracle) (w h : Nat) (px : Int → Int → Pixel) : Outcome Map :=
  let m : Map := ⟨w, h, px, [], [], [], 0, 0, 0, false⟩
  (initNodeList o m (maxLabel m .vertex)).bind fun m1 =>
  (initEdgeList m1 (maxLabel m .line)).bind fun m2 =>
  (initFaceList o m2 (maxLabel m .region)).bind fun m3 =>
  .ok { m3 with init := true }

end Verif.FourEight

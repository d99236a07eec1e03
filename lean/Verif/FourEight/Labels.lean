import Verif.FourEight.Init
import Verif.FourEight.Config

/-!
# The pixel based map: labelling the cells (foureightsegmentation.cxx:732-890, hxx:757-784)

Parameters of the model: the labels which VIGRA's `labelImageWithBackground` gives to the connected components of node pixels and of face
pixels.
-/

namespace Verif.FourEight
open Verif Verif.CellImage

/-- foureightsegmentation.cxx:877-888 `labelEdge`: `for(; !edge.atEnd(); ++edge) edge->setLabel(newLabel, CellTypeLine)`; `atEnd()` is
false for the first pixel -/
def labelEdge (label : Nat) : Nat → Map → Dart → Outcome Map
  | 0, _, _ => .hang
  | n + 1, m, d =>
    (m.nb d 0).bind fun _ =>
    let m' : Map := { m with px := paint m.px [(d.x + dx d.dir, d.y + dy d.dir)] (.line, label) }
    (edgelNext m' d).bind fun e => (m'.nb e 0).bind fun p => if p.1 = .vertex then .ok m' else labelEdge label n m' e

/-- the map and `maxEdgeLabel` -/
abbrev EdgeState := Map × Nat

/-- foureightsegmentation.cxx:803-809: one dart of a node -/
def labelDart (st : EdgeState) (d : Dart) : Outcome EdgeState :=
  (edgeLabel st.1 d).bind fun l =>
    if l ≠ 0 then .ok st else (labelEdge (st.2 + 1) st.1.fuel st.1 d).bind fun m' => .ok (m', st.2 + 1)

/-- foureightsegmentation.cxx:803-810: `do ... while(dart.nextSigma() != dend)` -/
def labelDarts (dend : Dart) : Nat → EdgeState → Dart → Outcome EdgeState
  | 0, _, _ => .hang
  | n + 1, st, d =>
    (labelDart st d).bind fun st' =>
    (sigma st'.1 1 d).bind fun d' => (dartEq st'.1 d' dend).bind fun b => if b then .ok st' else labelDarts dend n st' d'

/-- foureightsegmentation.cxx:787-810: one pixel; the list is `nodeProcessed` -/
def labelNode (st : EdgeState × List Bool) (p : Int × Int) : Outcome (EdgeState × List Bool) :=
  if (st.1.1.px p.1 p.2).1 ≠ .vertex then .ok st else
  match st.2[(st.1.1.px p.1 p.2).2]? with
  | none => .ub
  | some true => .ok st
  | some false =>
    (mkDart st.1.1 ⟨p.1, p.2, 4⟩).bind fun a =>
    (isSingular st.1.1 a).bind fun s =>
    (if s then .ok st.1 else labelDarts a st.1.1.fuel st.1 a).bind fun st' =>
    .ok (st', st.2.set (st.1.1.px p.1 p.2).2 true)

/-- foureightsegmentation.cxx:775-815 `labelEdges` -/
def labelEdges (m : Map) (maxNode : Nat) : Outcome EdgeState :=
  (foldO labelNode (innerPixels m.w m.h) ((m, 0), List.replicate (maxNode + 1) false)).map (·.1)

/-- foureightsegmentation.cxx:817-830 `labelFaces`: the labels that VIGRA found are written to the face pixels, except for the margin -/
def labelFaces (faceLabel : Int → Int → Nat) (m : Map) : Map :=
  { m with px := fun x y =>
      if (m.px x y).1 = .region ∧ -2 < x ∧ x < m.w - 3 ∧ -2 < y ∧ y < m.h - 3 then (.region, faceLabel x y) else m.px x y }

/-- foureightsegmentation.cxx:856-865: one neighbour of the new node -/
def loopDart (p : Int × Int) (st : EdgeState) (k : Fin 8) : Outcome EdgeState :=
  (st.1.nb ⟨p.1, p.2, k⟩ 0).bind fun q =>
    if q.1 ≠ .line then .ok st
    else if q.2 ≠ 0 then .ok st
    else (labelEdge (st.2 + 1) st.1.fuel st.1 ⟨p.1, p.2, k⟩).bind fun m' => .ok (m', st.2 + 1)

/-- foureightsegmentation.cxx:840-867: one pixel; the numbers are `maxNodeLabel` and `maxEdgeLabel` -/
def labelSelfLoop (st : Map × Nat × Nat) (p : Int × Int) : Outcome (Map × Nat × Nat) :=
  if (st.1.px p.1 p.2).2 ≠ 0 then .ok st
  else
    (foldO (loopDart p) [0, 1, 2, 3, 4, 5, 6, 7]
      ({ st.1 with px := paint st.1.px [p] (.vertex, st.2.1 + 1) }, st.2.2)).bind fun r => .ok (r.1, st.2.1 + 1, r.2)

/-- foureightsegmentation.cxx:832-875 `labelSelfLoops` -/
def labelSelfLoops (m : Map) (maxNode maxEdge : Nat) : Outcome (Map × Nat × Nat) :=
  foldO labelSelfLoop (innerPixels m.w m.h) (m, maxNode, maxEdge)

/-- the labels found by VIGRA's `labelImageWithBackground` (foureightsegmentation.cxx:769-771 and 821-828) -/
structure Components where
  node : Int → Int → Nat
  maxNode : Nat
  face : Int → Int → Nat
  maxFace : Nat

/-- foureightsegmentation.cxx:732-773 `labelNodes`, after `initCellImage` (which gives all pixels the label 0) -/
def typedMap (w h : Nat) (cells : Int → Int → CellType) (v : Components) : Map :=
  ⟨w, h, fun x y => (cells x y, if cells x y = .vertex then v.node x y else 0), [], [], [], 0, 0, 0, false⟩

/-- foureightsegmentation.hxx:772-775: labels of all pixels of a classified image -/
def labelCells (w h : Nat) (cells : Int → Int → CellType) (v : Components) : Outcome (Map × Nat × Nat) :=
  (labelEdges (typedMap w h cells v) v.maxNode).bind fun r => labelSelfLoops (labelFaces v.face r.1) v.maxNode r.2

/-- foureightsegmentation.hxx:757-784 `init` for a `w` x `h` source image -/
def initMap (corner : CellType) (w h : Nat) (src : Int → Int → Bool) (v : Components) (o : Oracle) : Outcome Map :=
  (initCellImage corner (w + 4) (h + 4) (contourImage w h src)).bind fun cells =>
  (labelCells (w + 4) (h + 4) cells v).bind fun r =>
  (initNodeList o r.1 r.2.1).bind fun m1 =>
  (initEdgeList m1 r.2.2).bind fun m2 =>
  (initFaceList o m2 v.maxFace).bind fun m3 =>
  .ok { m3 with init := true }

end Verif.FourEight

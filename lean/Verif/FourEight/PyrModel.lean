import Verif.FourEight.Model

/-!
# Operations of the cell pyramid on the pixel based map

Models the part of `src/cellimage/cellpyramid.hxx` that acts on one level (`performOperation`) for the pixel based map, and how darts are
stored in the history (foureightsegmentation.hxx:612-629).  The statistics that are notified of operations are not modelled.
-/

namespace Verif.FourEight
open Verif Verif.CellImage

/-- foureightsegmentation.hxx:614-620 `serialize`, for an `int` of 32 bits: shifting bits out of it is undefined.  The position is relative to
the upper left pixel of the image, which has the coordinates (-2, -2) here. -/
def serialize (d : Dart) : Outcome Nat :=
  if d.x + 2 < 0 ∨ 2 ^ 17 ≤ d.x + 2 ∨ d.y + 2 < 0 ∨ 2 ^ 31 ≤ d.y + 2 then .ub
  else .ok (d.dir.val <<< 28 ||| (d.x + 2).toNat <<< 14 ||| (d.y + 2).toNat)

/-- foureightsegmentation.hxx:622-629 constructor `DartTraverser(segmentation, serialized)`.  Simplified: a number that is no direction counts
as undefined behaviour. -/
def deserialize (s : Nat) : Outcome Dart :=
  if h : s >>> 28 < 8 then .ok ⟨((s >>> 14 &&& 0x3fff : Nat) : Int) - 2, ((s &&& 0x3fff : Nat) : Int) - 2, ⟨s >>> 28, h⟩⟩ else .ub

/-- cellpyramid.hxx:54-60 `OperationType`, without `Composite` -/
inductive PyrOp where
  | removeIsolatedNode
  | mergeFaces
  | removeBridge
  | mergeEdges
  | removeEdge
  | removeEdgeWithEnds
  deriving DecidableEq

/-- cellpyramid.hxx:256-261 -/
def removeEdge (m : Map) (d : Dart) : Outcome (Map × Nat) :=
  (leftFace m d).bind fun l => (rightFace m d).bind fun r => if l = r then removeBridge m d else mergeFaces m d

/-- cellpyramid.hxx:270-271, 273-274: `if(node.degree == 0) removeIsolatedNodeInternal(node.anchor)`.  Simplified: a node that is not
initialized counts as undefined behaviour. -/
def dropNode (m : Map) (n : Nat) : Outcome Map :=
  (m.node n).bind fun N => if N.degree = 0 then (removeIsolatedNode m N.anchor).map (·.1) else .ok m

/-- cellpyramid.hxx:262-279 -/
def removeEdgeWithEnds (m : Map) (d : Dart) : Outcome (Map × Nat) :=
  (edgeLabel m d).bind fun e => (m.edge e).bind fun E =>
  (nodeLabel m E.start).bind fun n1 => (m.node n1).bind fun _ =>
  (nodeLabel m E.stop).bind fun n2 => (m.node n2).bind fun _ =>
  (removeEdge m d).bind fun r =>
  (dropNode r.1 n1).bind fun m2 =>
  (if n1 ≠ n2 then dropNode m2 n2 else .ok m2).bind fun m3 => .ok (m3, r.2)

/-- cellpyramid.hxx:236-279 with a dart -/
def performDart (m : Map) (op : PyrOp) (d : Dart) : Outcome (Map × Nat) :=
  match op with
  | .removeIsolatedNode => removeIsolatedNode m d
  | .mergeFaces => mergeFaces m d
  | .removeBridge => removeBridge m d
  | .mergeEdges => mergeEdges m d
  | .removeEdge => removeEdge m d
  | .removeEdgeWithEnds => removeEdgeWithEnds m d

/-- cellpyramid.hxx:225-283 `performOperation` -/
def perform (m : Map) (op : PyrOp) (param : Nat) : Outcome (Map × Nat) := (deserialize param).bind (performDart m op)

end Verif.FourEight

import Verif.Midcrack.Model
import Verif.GeoMap.Geometry

/-!
# What the changes of the geometry mean

Small specification for the statements about `crackEdgesToMidcracks`, `midcracksToThreshold` and the border.
-/

namespace Verif.Midcrack
open Verif Verif.GeoMap

variable {K : Type}

/-- The maps have the same cells, darts, faces and flags; positions, polygons and cached areas may differ. -/
structure SameTopology (s t : GMap K) : Prop where
  sizes : t.nNodes = s.nNodes ∧ t.nEdges = s.nEdges ∧ t.nFaces = s.nFaces
  counts : t.nodeCount = s.nodeCount ∧ t.edgeCount = s.edgeCount ∧ t.faceCount = s.faceCount
  sigma : t.sigma = s.sigma ∧ t.sigmaInv = s.sigmaInv ∧ t.edgesSorted = s.edgesSorted
  node : ∀ n, (t.node n).map (·.anchor) = (s.node n).map (·.anchor)
  edge : ∀ l, (t.edge l).map (fun e => (e.startN, e.endN, e.leftF, e.rightF, e.flags)) =
    (s.edge l).map fun e => (e.startN, e.endN, e.leftF, e.rightF, e.flags)
  face : ∀ f, (t.face f).map (fun F => (F.anchors, F.pixelArea)) = (s.face f).map fun F => (F.anchors, F.pixelArea)

/-- All edges have at least two points. -/
def Long (s : GMap K) : Prop := ∀ l e, s.edge l = some e → 2 ≤ e.pts.length

/-- The edge is a loop and no other edge ends at its node. -/
def OnlyLoop (s : GMap K) (l : Nat) : Prop :=
  ∃ e, s.edge l = some e ∧ e.startN = e.endN ∧ ∀ d, s.startN? d = some e.startN → d.natAbs = l

section
variable [AddCommGroup K]

/-- the points at the places `1 ... n-1` are the midpoints of the `n-1` segments -/
def Midpoints (pts pts' : List (Pt K)) : Prop :=
  ∀ i, 0 < i → i < pts.length → ∃ p q r, pts[i - 1]? = some p ∧ pts[i]? = some q ∧ pts'[i]? = some r ∧ r + r = p + q

/-- The ends stay, between them are the midpoints of all segments. -/
structure Kept (pts pts' : List (Pt K)) : Prop where
  length : pts'.length = pts.length + 1
  head : pts'.head? = pts.head?
  last : pts'.getLast? = pts.getLast?
  mids : Midpoints pts pts'

/-- A closed polygon through the midpoints of all segments that starts and ends at the last of them. -/
structure Turned (pts pts' : List (Pt K)) : Prop where
  length : pts'.length = pts.length
  closed : pts'.head? = pts'.getLast?
  mids : Midpoints pts pts'

/-- The edges in `done` have been changed to midcracks. -/
structure Midcracked (done : Nat → Prop) (s t : GMap K) : Prop where
  edge : ∀ l e, s.edge l = some e → ∃ e', t.edge l = some e' ∧ (¬ done l → e'.pts = e.pts) ∧
    (done l → OnlyLoop s l → Turned e.pts e'.pts) ∧ (done l → ¬ OnlyLoop s l → Kept e.pts e'.pts)
  /-- only the nodes of single loops move, to the start of the new polygon -/
  node : ∀ n nd, s.node n = some nd → ∃ nd', t.node n = some nd' ∧
    ((∀ l e, done l → OnlyLoop s l → s.edge l = some e → e.startN ≠ n) → nd'.pos = nd.pos) ∧
    ∀ l e e', done l → OnlyLoop s l → s.edge l = some e → e.startN = n → t.edge l = some e' → e'.pts.head? = some nd'.pos

end

/-- the edge lies on the contour of the dart `a` (on one of its sides) -/
def OnContour (s : GMap K) (a : Int) (l : Nat) : Prop := ∃ d : Int, d.natAbs = l ∧ s.phiReach a d

end Verif.Midcrack

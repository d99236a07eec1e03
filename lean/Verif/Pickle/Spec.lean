import Verif.Pickle.Model
import Verif.GeoMap.Init

/-!
# Specification of pickling

`SameMap`: two maps a user cannot tell apart (up to the order in which the contours of a face are
listed, the dart a node or contour is entered at, cached areas, and labels of removed nodes and edges
above all existing ones).  `Regions` and `Finds` say what unpickling needs to get the faces right.
-/

namespace Verif.Pickle
open Verif Verif.GeoMap

variable {K : Type}

/-- the same nodes, edges, faces and flags under the same labels -/
structure SameMap (s t : PMap K) : Prop where
  /-- the same nodes at the same positions -/
  nodes : ∀ n, (t.map.node n).map (·.pos) = (s.map.node n).map (·.pos)
  /-- the same edges: end nodes, points, faces on both sides and flags -/
  edges : ∀ l, t.map.edge l = s.map.edge l
  /-- the same order of the darts around every node -/
  nextSigma : ∀ d, s.map.liveD d → t.map.nextSigma d = s.map.nextSigma d
  prevSigma : ∀ d, s.map.liveD d → t.map.prevSigma d = s.map.prevSigma d
  nodeCount : t.map.nodeCount = s.map.nodeCount
  edgeCount : t.map.edgeCount = s.map.edgeCount
  faceCount : t.map.faceCount = s.map.faceCount
  sorted : t.map.edgesSorted = s.map.edgesSorted
  /-- the same size of the table of faces (in particular initialised or not) -/
  maxFaceLabel : t.map.nFaces = s.map.nFaces
  /-- the same faces with the same contours -/
  faces : ∀ f, (t.map.face f).isSome = (s.map.face f).isSome
  contours : ∀ f F G, s.map.face f = some F → t.map.face f = some G →
    G.anchors.length = F.anchors.length ∧ (∀ a ∈ F.anchors, ∃ b ∈ G.anchors, s.map.phiReach a b) ∧ ∀ b ∈ G.anchors, ∃ a ∈ F.anchors, s.map.phiReach a b
  /-- the same flags, except for the four highest bits -/
  flags : ∀ f, (s.map.face f).isSome = true → t.faceFlags f = s.faceFlags f % 2 ^ 28

variable [Field K] [LinearOrder K]

/-- The faces are regions with holes: a finite face has one contour of positive area (the outer one);
the others have negative area or area 0 and are smaller by at least 1/100.  The infinite face has at
least one contour, none of positive area. -/
structure Regions (s : GMap K) : Prop where
  outer : ∀ f F, s.face f = some F → f ≠ 0 → ∃ a ∈ F.anchors, 0 < s.orbitArea a ∧
    ∀ b ∈ F.anchors, b ≠ a → s.orbitArea b ≤ 0 ∧ |s.orbitArea b| + 1 / 100 ≤ s.orbitArea a
  infinite : ∀ F, s.face 0 = some F → F.anchors ≠ [] ∧ ∀ b ∈ F.anchors, s.orbitArea b ≤ 0

/-- `u` is a stage of the embedding of the faces of `s`, before the hole contour of `a` is embedded:
the same graph; every contour has one left face; contours with the same face in `u` have the same face in `s`; the contours in
the infinite face are so in `s`; every contour that is larger than that of `a` (by 1/100) has been
embedded. -/
structure Stage (s u : GMap K) (a : Int) : Prop where
  edges : ∀ l, (u.edge l).map (fun e => (e.startN, e.endN, e.pts)) = (s.edge l).map (fun e => (e.startN, e.endN, e.pts))
  sigma : ∀ d, s.liveD d → u.nextSigma d = s.nextSigma d
  contours : ∀ d, s.liveD d → u.left? (s.phi d) = u.left? d
  groups : ∀ d e f, u.left? d = some f → u.left? e = some f → s.left? d = s.left? e
  infinite : ∀ d, u.left? d = some 0 → s.left? d = some 0
  larger : ∀ d, s.liveD d → |s.orbitArea a| + 1 / 100 ≤ |s.orbitArea d| → ∃ f, u.left? d = some f ∧ (u.face f).isSome = true

/-- The geometric search is right for `s`: at every stage it finds the face around a hole contour, if
the outer contour of that face has been embedded; for a contour of the infinite face it finds none. -/
def Finds (s : GMap K) (pick : GMap K → Int → Option Nat) : Prop :=
  ∀ u a, s.liveD a → s.orbitArea a ≤ 0 → Stage s u a →
    (s.left? a = some 0 → ∀ g, pick u a = some g → g ≠ 0 → u.face g = none) ∧
    ∀ d f g, f ≠ 0 → s.left? a = some f → s.left? d = some f → 0 < s.orbitArea d → u.left? d = some g → (u.face g).isSome = true →
      pick u a = some g

end Verif.Pickle

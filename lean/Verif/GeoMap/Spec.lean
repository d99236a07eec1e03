import Verif.GeoMap.Model
import Mathlib.Data.Finset.Card
import Mathlib.Logic.Function.Iterate
import Mathlib.Data.Finset.Filter
import Mathlib.Data.Finset.Range

/-!
# What a consistent `GeoMap` is

Small specification used in the statements of the `GeoMap` theorems.  Everything is phrased
in terms of what the API shows: which labels name existing cells, the start node and left face of a
dart, `nextSigma`/`prevSigma`/`nextPhi`/`prevPhi`, node anchors, contours and the counts.
-/

namespace Verif.GeoMap

variable {K : Type}

namespace GMap

/-- the dart's edge exists -/
def liveD (s : GMap K) (d : Int) : Prop := (s.edge d.natAbs).isSome = true

instance (s : GMap K) (d : Int) : Decidable (s.liveD d) :=
  inferInstanceAs (Decidable (_ = true))

/-- start node label of a dart (`none`: no such dart) -/
def startN? (s : GMap K) (d : Int) : Option Nat := (s.edge d.natAbs).map (·.startOf d)

/-- label of the face left of a dart -/
def left? (s : GMap K) (d : Int) : Option Nat := (s.edge d.natAbs).bind (·.leftOf d)

/-- labels of existing nodes, edges, faces -/
def liveNodes (s : GMap K) : Finset Nat := (Finset.range s.nNodes).filter fun n => (s.node n).isSome
def liveEdges (s : GMap K) : Finset Nat := (Finset.range s.nEdges).filter fun n => (s.edge n).isSome
def liveFaces (s : GMap K) : Finset Nat := (Finset.range s.nFaces).filter fun n => (s.face n).isSome

/-- `d'` is reached from `d` by repeated `nextSigma` -/
def sigmaReach (s : GMap K) (d d' : Int) : Prop := ∃ k : Nat, s.nextSigma^[k] d = d'

/-- `d'` is reached from `d` by repeated `nextPhi` (it lies on the same contour) -/
def phiReach (s : GMap K) (d d' : Int) : Prop := ∃ k : Nat, s.phi^[k] d = d'

end GMap

/-- The graph part: labels, counts, and the embedding (sigma orbits = darts around a node). -/
structure GraphOK (s : GMap K) : Prop where
  edges_pos : 0 < s.nEdges
  edge_zero : s.edge 0 = none
  node_lt : ∀ n, (s.node n).isSome = true → n < s.nNodes
  edge_lt : ∀ n, (s.edge n).isSome = true → n < s.nEdges
  face_lt : ∀ n, (s.face n).isSome = true → n < s.nFaces
  node_count : s.nodeCount = s.liveNodes.card
  edge_count : s.edgeCount = s.liveEdges.card
  face_count : s.faceCount = s.liveFaces.card
  pts_ne : ∀ l e, s.edge l = some e → e.pts ≠ []
  sigma_live : ∀ d, s.liveD d → s.liveD (s.nextSigma d) ∧ s.prevSigma (s.nextSigma d) = d
  sigmaInv_live : ∀ d, s.liveD d → s.liveD (s.prevSigma d) ∧ s.nextSigma (s.prevSigma d) = d
  start_live : ∀ d n, s.startN? d = some n → (s.node n).isSome = true
  start_sigma : ∀ d, s.liveD d → s.startN? (s.nextSigma d) = s.startN? d
  /-- a node without anchor has no darts; otherwise the anchor starts there and its sigma orbit
  contains all darts starting there -/
  anchor_zero : ∀ n nd, s.node n = some nd → nd.anchor = 0 → ∀ d, s.startN? d ≠ some n
  anchor_start : ∀ n nd, s.node n = some nd → nd.anchor ≠ 0 → s.startN? nd.anchor = some n
  anchor_cover : ∀ n nd, s.node n = some nd → nd.anchor ≠ 0 →
    ∀ d, s.startN? d = some n → s.sigmaReach nd.anchor d

/-- The face part: every dart has a left face, constant along its phi orbit, and the face has
exactly one anchor for each of these orbits. -/
structure ContoursOK (s : GMap K) : Prop where
  face_live : ∀ d, s.liveD d → ∃ f F, s.left? d = some f ∧ s.face f = some F
  left_phi : ∀ d, s.liveD d → s.left? (s.phi d) = s.left? d
  anchor_left : ∀ f F a, s.face f = some F → a ∈ F.anchors → s.left? a = some f
  anchor_cover : ∀ f F d, s.face f = some F → s.left? d = some f → ∃ a ∈ F.anchors, s.phiReach a d
  anchor_unique : ∀ f F, s.face f = some F → F.anchors.Pairwise (fun a b => ¬ s.phiReach a b)
  face_zero : (s.face 0).isSome = true

/-- A consistent map, before or after `initializeMap`. -/
structure MapOK (s : GMap K) : Prop where
  graph : GraphOK s
  contours : s.initialized → ContoursOK s

/-- In a planar map, an edge with the same face on both sides is passed twice by one contour. -/
def BridgesOK (s : GMap K) : Prop :=
  ∀ d, s.liveD d → s.left? d = s.left? (-d) → s.phiReach d (-d)

end Verif.GeoMap

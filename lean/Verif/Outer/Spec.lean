import Verif.Locate.Spec

/-!
# Outer contours: specification

The contours of a face are given by its anchors (one dart per contour); a contour consists of the darts that are reached from its anchor by `phi`.
`orbitArea a` (GeoMap/Init.lean) is the signed area of the contour of `a`, `contourWind s c a` (Locate/Fill.lean) how often it winds around point `c`,
`Located s c f` (Locate/Spec.lean) says that `c` lies in face `f`.
-/

namespace Verif.Outer
open Verif Verif.GeoMap Verif.Polygon Verif.Locate Verif.LabelImage

variable {K : Type} [Field K] [LinearOrder K] [IsStrictOrderedRing K]

/-- Dart `d` lies on the first contour of face `f`. -/
def OnFirst (s : GMap K) (f : Nat) (d : Int) : Prop := ∃ F a as, s.face f = some F ∧ F.anchors = a :: as ∧ s.phiReach a d

/-- The edge of dart `r` is a closed curve that is attached to no other edge, and it is the only contour of face `f` on its left. -/
def Disc (s : GMap K) (f : Nat) (r : Int) : Prop := s.phi r = r ∧ s.phi (-r) = -r ∧ ∃ F a, s.face f = some F ∧ F.anchors = [a]

/-- Whichever of the two faces at the edge of `d` survives (the other one, `ml`, is gone in `t`): if it is a finite face `sl` and the edge lies
on its first contour, then the edge also lies on the first contour of the other face, or the edge is all there is of the boundary of `sl`. -/
def KeepsOuter (s t : GMap K) (d : Int) : Prop :=
  ∀ r sl ml, (r = d ∨ r = -d) → s.left? r = some sl → s.left? (-r) = some ml → t.face ml = none → sl ≠ 0 → OnFirst s sl r →
    OnFirst s ml (-r) ∨ Disc s sl r

/-- Histories: the faces are created by `initializeMap` and partition the plane; then any calls that return normally, where removals of edges between two
faces meet `KeepsOuter`. -/
inductive Kept : GMap K → Prop
  | start {g s : GMap K} {pick : GMap K → Int → Option Nat} : ReachG g → ¬ g.initialized → g.initializeMap pick = .ok s → PlanarOK s → Subdivision s → Kept s
  | call {s t : GMap K} (h : Hooks K) (op : LOp K) : Kept s → op.op.legal s → op.fits s → op.op.run h s = .ok t →
      (∀ d, op = .mergeFaces d ∨ op = .removeEdge d → KeepsOuter s t d) → Kept t
  | rename {s t : GMap K} {lab : Nat → Nat} (new : List Nat) (size : Nat) : Kept s → new[0]? = some 0 →
      s.changeFaceLabels new size = .ok ⟨true, t, lab⟩ → Kept t

end Verif.Outer

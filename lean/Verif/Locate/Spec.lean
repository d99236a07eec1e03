import Verif.Scan.Spec
import Verif.GeoMap.Machine2
import Verif.LabelImage.Spec

/-!
# Which face a point lies in

The geometry of a map, independent of the code: winding numbers of the contours of a face around a point.  The orientation is that of
`turn`: the contours of a finite face wind once around the points of the face.
-/

namespace Verif.Locate
open Verif Verif.GeoMap Verif.Polygon Verif.Scan

variable {K : Type} [Field K] [LinearOrder K]

/-- How often a dart winds around `c`. -/
def dartWind (g : GMap K) (c : Pt K) (d : Int) : Int :=
  match g.edge d.natAbs with
  | none => 0
  | some e => winding c (e.dartPts d)

/-- How often the contours of face `f` wind around `c`: the sum over all darts with `f` on their left. -/
def faceWind (g : GMap K) (c : Pt K) (f : Nat) : Int := ∑ d ∈ g.darts, if g.left? d = some f then dartWind g c d else 0

/-- `c` lies on an edge. -/
def OnEdge (g : GMap K) (c : Pt K) : Prop := ∃ l e, g.edge l = some e ∧ OnLine e.pts c

/-- `c` lies in face `f`: the contours of a finite face wind once around `c` if it is `f`, otherwise not at all; the
contours of the infinite face wind around `c` once in the negative sense unless it is `f`. -/
def Located (g : GMap K) (c : Pt K) (f : Nat) : Prop :=
  (g.face f).isSome = true ∧ ∀ k, (g.face k).isSome = true → faceWind g c k = (if k = f then 1 else 0) - if k = 0 then 1 else 0

/-- The faces of the map partition the plane: every point off the edges lies in a face, and every point of an edge is
a limit of points that lie in the face left of the edge (and, as every edge has two darts, in the face on its right). -/
structure Subdivision (g : GMap K) : Prop where
  located : ∀ c, ¬ OnEdge g c → ∃ f, Located g c f
  border : ∀ d e, g.edge d.natAbs = some e → ∀ q, OnLine e.pts q → ∀ ε : K, 0 < ε →
    ∃ c f, g.left? d = some f ∧ |c.1 - q.1| < ε ∧ |c.2 - q.2| < ε ∧ ¬ OnEdge g c ∧ Located g c f

/-- Maps built by the API that at some time, when they had faces, were subdivisions of the plane (their edges had been
drawn without crossings and sorted accordingly), followed by any history of calls that returned normally: the Euler
operations and bookkeeping calls, with any callbacks, and successful `changeFaceLabels` keeping label 0. -/
inductive Drawn : GMap K → Prop
  | start {g : GMap K} : ReachG g → g.initialized → Subdivision g → Drawn g
  | call {s t : GMap K} (h : Hooks K) (op : LabelImage.LOp K) : Drawn s → op.op.legal s → op.fits s → op.op.run h s = .ok t → Drawn t
  | rename {s t : GMap K} {lab : Nat → Nat} (new : List Nat) (size : Nat) : Drawn s → new[0]? = some 0 →
      s.changeFaceLabels new size = .ok ⟨true, t, lab⟩ → Drawn t

end Verif.Locate

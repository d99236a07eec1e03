import Verif.Query.Model
import Verif.Locate.ImageSpec
import Verif.Locate.Spec

/-! # Point queries: specification

`Located g c f` (Locate/Spec.lean) says that the point `c` lies in face `f`, `contourWind g c a` (Locate/Fill.lean) how often the contour of dart `a`
winds around `c`. -/

namespace Verif.Query
open Verif Verif.GeoMap Verif.Polygon Verif.LabelImage Verif.Locate

variable {K : Type} [Field K] [LinearOrder K] [IsStrictOrderedRing K]

/-- The first contour of every finite face is its outer contour and the others are boundaries of holes: the outer contour winds at most once around a
point, in the positive sense, the boundary of a hole at most once in the negative sense.  All contours of the infinite face are boundaries of holes. -/
def Oriented (g : GMap K) : Prop := ∀ c, ¬ OnEdge g c → ∀ f F, g.face f = some F →
  (f ≠ 0 → ∃ a as, F.anchors = a :: as ∧ (contourWind g c a = 0 ∨ contourWind g c a = 1) ∧ ∀ b ∈ as, contourWind g c b = 0 ∨ contourWind g c b = -1) ∧
  (f = 0 → ∀ b ∈ F.anchors, contourWind g c b = 0 ∨ contourWind g c b = -1)

/-- The box contains all points of the face (that are on no edge). -/
def Covers (g : GMap K) (x : Box K) (f : Nat) : Prop := ∀ c, ¬ OnEdge g c → Located g c f → inBox x c = true

/-- Calls that may merge faces. -/
def mayMerge : LOp K → Prop
  | .mergeFaces _ => True
  | .removeEdge _ => True
  | _ => False

variable [FloorRing K]

/-- Maps with the bounding boxes of their faces: the faces partitioned the plane at some time when no box had been asked for; then any history of calls
that returned normally.  The label image may be switched on once, when labels are nested.  Boxes are computed (by `boundingBox()` or when faces are merged)
only while first contours are outer contours. -/
inductive QDrawn : LMap K → Boxes K → Prop
  | start {g : GMap K} {w h : Nat} {lut : LabelLUT.LUT} : ReachG g → g.initialized → Subdivision g → QDrawn (LMap.ofMap g w h lut) fun _ => none
  | on {g : GMap K} {w h : Nat} {lut : LabelLUT.LUT} {n : LMap K} {b : Boxes K} : QDrawn (LMap.ofMap g w h lut) b →
      (∀ F, g.face 0 = some F → F.pixelArea = 0) → Nested g → (LMap.ofMap g w h lut).setHasLabelImage true = .ok n → QDrawn n b
  | call {m n : LMap K} {b b' : Boxes K} (h : Hooks K) (op : LOp K) : QDrawn m b → op.op.legal m.g → op.fits m.g → (mayMerge op → Oriented m.g) →
      run h m b op = .ok (n, b') → QDrawn n b'
  | box {m : LMap K} {b b' : Boxes K} {f : Nat} {x : Box K} : QDrawn m b → Oriented m.g → (m.g.face f).isSome = true → faceBox m.g b f = .ok (x, b') →
      QDrawn m b'
  | rename {m n : LMap K} {b : Boxes K} {lab : Nat → Nat} (new : List Nat) (size : Nat) : QDrawn m b → new[0]? = some 0 →
      m.changeFaceLabels new size = .ok (true, n, lab) → QDrawn n (renameBoxes m.g new b)

end Verif.Query

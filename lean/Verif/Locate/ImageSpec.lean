import Verif.Locate.Fill

/-! # Label images of drawn maps: specification -/

namespace Verif.Locate
open Verif Verif.GeoMap Verif.Scan Verif.LabelImage

variable {K : Type} [Field K] [LinearOrder K] [IsStrictOrderedRing K] [FloorRing K]

/-- The first contour of face `f` winds around `c`. -/
def FirstEncloses (g : GMap K) (c : Pt K) (f : Nat) : Prop := ∃ F a as, g.face f = some F ∧ F.anchors = a :: as ∧ 0 < contourWind g c a

/-- The first contour of every finite face is its outer contour, and a face inside the outer contour of another one has the greater label. -/
structure Nested (g : GMap K) : Prop where
  outer : ∀ c f, ¬ OnEdge g c → Located g c f → f ≠ 0 → FirstEncloses g c f
  order : ∀ c f k, ¬ OnEdge g c → Located g c f → k ≠ 0 → FirstEncloses g c k → k ≤ f

/-- Maps with a label image: switched on once, when the map was a subdivision of the plane with nested labels, followed by any history of calls that
returned normally, including `changeFaceLabels` with the infinite face keeping its label. -/
inductive LDrawn : LMap K → Prop
  | on {g : GMap K} {w h : Nat} {lut : LabelLUT.LUT} {m : LMap K} : ReachG g → g.initialized → (∀ F, g.face 0 = some F → F.pixelArea = 0) →
      Subdivision g → Nested g → (LMap.ofMap g w h lut).setHasLabelImage true = .ok m → LDrawn m
  | call {m n : LMap K} (h : Hooks K) (op : LOp K) : LDrawn m → op.op.legal m.g → op.fits m.g → op.run h m = .ok n → LDrawn n
  | rename {m n : LMap K} {lab : Nat → Nat} (new : List Nat) (size : Nat) : LDrawn m → new[0]? = some 0 →
      m.changeFaceLabels new size = .ok (true, n, lab) → LDrawn n

theorem LDrawn.lreach {m : LMap K} (h : LDrawn m) : LReach m := by
  induction h with
  | on hr hi h0 _ _ e => exact .on hr hi h0 e
  | call h op _ hl hf e ih => exact .call h op ih hl hf e
  | rename new size _ h0 e ih => exact .rename new size ih h0 e

end Verif.Locate

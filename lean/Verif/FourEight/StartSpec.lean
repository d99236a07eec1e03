import Verif.FourEight.LabelSpec
import Verif.FourEight.Init
import Mathlib.Logic.Function.Iterate

/-!
# Construction of the pixel based map: specification of what VIGRA's functions promise, and of nodes without holes
-/

namespace Verif.FourEight
open Verif Verif.CellImage

/-- the crack between a pixel of a node and one of its four neighbours that does not belong to a node -/
structure Crack (m : Map) (d : Dart) : Prop where
  inside : m.inside d.x d.y
  node : (m.px d.x d.y).1 = .vertex
  even : d.dir.val % 2 = 0
  out : (m.look d.x d.y d.dir).1 ≠ .vertex

/-- the next crack of the contour around a node (eight neighbours), counterclockwise -/
def nextCrack (m : Map) (d : Dart) : Dart :=
  if (m.look d.x d.y (d.dir + 1)).1 = .vertex then ⟨d.x + dx (d.dir + 1), d.y + dy (d.dir + 1), d.dir + 6⟩
  else if (m.look d.x d.y (d.dir + 2)).1 = .vertex then ⟨d.x + dx (d.dir + 2), d.y + dy (d.dir + 2), d.dir⟩
  else ⟨d.x, d.y, d.dir + 2⟩

/-- No node has a hole: all its cracks lie on one contour, the one that starts at the west of its first pixel. -/
def NoHoles (m : Map) : Prop := ∀ x y d, FirstOf m x y → Crack m d → (m.px d.x d.y).2 = (m.px x y).2 →
  ∃ n, (nextCrack m)^[n] ⟨x, y, 4⟩ = d

/-- What `labelImageWithBackground` promises for the contours (foureightsegmentation.cxx:1071-1075): faces have no label, other pixels have
one of the labels 1, ..., `components`, and neighbouring ones (eight neighbours) have the same label. -/
structure Oracle.Sane (o : Oracle) (m : Map) : Prop where
  zero : ∀ x y, m.inside x y → (o.contour x y = 0 ↔ (m.px x y).1 = .region)
  range : ∀ x y, m.inside x y → o.contour x y ≤ o.components
  next : ∀ x y (k : Fin 8), m.inside x y → (m.px x y).1 ≠ .region → (m.look x y k).1 ≠ .region →
    o.contour (x + dx k) (y + dy k) = o.contour x y

end Verif.FourEight

import Verif.FourEight.Spec
import Verif.FourEight.DartSpec

/-!
# Histories of the pixel based map: specification

Operations are called with darts of the map they are applied to.
-/

namespace Verif.FourEight
open Verif Verif.CellImage

/-- A position at a node without darts, as it is left behind when its last edge is removed: it looks at a face, and the face on the left can
be seen at the next or next but one neighbour. -/
structure AtIsolated (m : Map) (d : Dart) : Prop where
  inside : m.inside d.x d.y
  node : (m.px d.x d.y).1 = .vertex
  face : (m.look d.x d.y d.dir).1 = .region
  left : (m.look d.x d.y (d.dir + 1)).1 = .region ∨ (m.look d.x d.y (d.dir + 2)).1 = .region
  free : ∀ d', IsDart m d' → (m.px d'.x d'.y).2 ≠ (m.px d.x d.y).2

/-- what operations are called with -/
def DartCall (m : Map) : Op → Prop
  | .removeIsolatedNode d => AtIsolated m d
  | .mergeFaces d => IsDart m d
  | .removeBridge d => IsDart m d
  | .mergeEdges d => IsDart m d

/-- one call that returns normally -/
def DartStep (m m' : Map) : Prop := ∃ op l, DartCall m op ∧ run m op = .ok (m', l)

/-- histories -/
def DartReach : Map → Map → Prop := Relation.ReflTransGen DartStep

end Verif.FourEight

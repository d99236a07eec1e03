import Verif.FourEight.HistSpec

/-!
# The rectangle of the last changes

`CellStatistics` collects a rectangle around everything that operations changed, for a viewer that redraws only this part.
-/

namespace Verif.FourEight
open Verif Verif.CellImage Verif.Outcome

/-- the bounds of the cell an operation leaves: an edge after two edges were merged, a face after all others -/
def leftBounds (m : Map) (l : Nat) : Op → Outcome Rect
  | .mergeEdges _ => (m.edge l).bind fun E => .ok E.box
  | _ => (m.face l).bind fun F => .ok F.box

/-- One Euler operation with what the notification after it does to `lastChanges_`: cellstatistics.hxx:285 (isolated nodes), 302 (edges between
faces, bridges), 467 (merged edges).  Simplified: without rethinning of edges (on by default). -/
def runChanges (m : Map) (r : Rect) (op : Op) : Outcome (Map × Rect) :=
  (run m op).bind fun p => (leftBounds p.1 p.2 op).bind fun b => .ok (p.1, r.union b)

/-- cellstatistics.hxx:255-260 `clearLastChanges`: the rectangle kept afterwards (what it had been is returned) -/
def clearChanges (r : Rect) : Rect := ⟨r.x0, r.y0, r.x0, r.y0⟩

end Verif.FourEight

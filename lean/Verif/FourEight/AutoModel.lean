import Verif.FourEight.EdgeStatModel
import Verif.FourEight.MergedModel

/-!
# Automatic protection of edges

`CellStatistics::initAutoProtection` protects the edges of which enough pixels are edgels (found by an edge detector).
-/

namespace Verif.FourEight
open Verif Verif.CellImage Verif.Outcome

/-- the bit `EPCanny` of the flags (cellstatistics.hxx:85) -/
def cannyBit : Nat := 1

/-- cellstatistics.hxx:234-246, the loop of `initAutoProtection` over edges; with the flags and the rectangle it returns.  `edgel` is the image of
edgels.  Simplified: whether `count > size * threshold` is a parameter `enough`, because the product is of type `double`. -/
def autoLoop (m : Map) (mg : List Nat) (edgel : Int → Int → Bool) (enough : Nat → Nat → Bool) : List Nat → List Nat → Rect → Outcome (List Nat × Rect)
  | [], prot, r => .ok (prot, r)
  | l :: ls, prot, r =>
    (m.edge l).bind fun E => (cellScan m E.box (.line, l)).bind fun ps =>
    (protectEdge mg (mg.length + 1) prot l (2 ^ cannyBit) (enough (ps.countP fun p => edgel p.1 p.2) E.size)).bind fun q =>
      autoLoop m mg edgel enough ls q.1 (if q.2 then r.union E.box else r)

/-- cellstatistics.hxx:230-248 `initAutoProtection` -/
def initAutoProtection (m : Map) (mg : List Nat) (edgel : Int → Int → Bool) (enough : Nat → Nat → Bool) (prot : List Nat) :
    Outcome (List Nat × Rect) :=
  autoLoop m mg edgel enough (edgeLabels m) prot ⟨0, 0, 0, 0⟩

/-- VIGRA `Rect2D::contains(Rect2D const &)` -/
def Rect.holds (b r : Rect) : Bool :=
  r.isEmpty || decide ((b.x0 ≤ r.x0 ∧ r.x0 < b.x1 ∧ b.y0 ≤ r.y0 ∧ r.y0 < b.y1) ∧ b.x0 ≤ r.x1 - 1 ∧ r.x1 - 1 < b.x1 ∧ b.y0 ≤ r.y1 - 1 ∧ r.y1 - 1 < b.y1)

/-- cellstatistics.hxx:477 and 619-629, the end of `postMergeEdges` with `doAutoProtection`: the flags after edges were merged to edge `l`; `bd` is
`segDataBounds`.  Simplified: `edgels_`, which is only written, is left out; without rethinning (on by default). -/
def autoProtect (m : Map) (mg : List Nat) (edgel : Int → Int → Bool) (enough : Nat → Nat → Bool) (bd : Rect) (prot : List Nat) (l : Nat) :
    Outcome (List Nat) :=
  (m.edge l).bind fun E =>
    if bd.holds E.box then
      (cellScan m E.box (.line, l)).bind fun ps =>
      (protectEdge mg (mg.length + 1) prot l (2 ^ cannyBit) (enough (ps.countP fun p => edgel p.1 p.2) E.size)).bind fun q => .ok q.1
    else .ok prot

/-- One Euler operation with the notifications, with the links of merged edges (`runMerged`) and the flags. -/
def runAuto (m : Map) (mg : List Nat) (edgel : Int → Int → Bool) (enough : Nat → Nat → Bool) (bd : Rect) (prot : List Nat) (op : Op) :
    Outcome (Map × List Nat × List Nat) :=
  match op with
  | .mergeEdges d =>
    (mergeEdges m d).bind fun p => (runMerged m mg (.mergeEdges d)).bind fun q => (autoProtect p.1 q.2 edgel enough bd prot p.2).bind fun prot =>
      .ok (p.1, q.2, prot)
  | op => (runMerged m mg op).bind fun q => .ok (q.1, q.2, prot)

end Verif.FourEight

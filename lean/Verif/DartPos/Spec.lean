import Verif.DartPos.Model

/-!
# Specification: points along a polyline

`pathLen L` is the length of the polyline with the points `L`, `along L a` the point at arc length `a` (the last point if `a`
is not below the length), `reach L k` the arc length of the point number `k`.
-/

namespace Verif.DartPos
open Verif Verif.GeoMap Verif.PointIter

/-- The length of a polyline. -/
noncomputable def pathLen : List (Pt ℝ) → ℝ
  | p :: q :: l => mag (q - p) + pathLen (q :: l)
  | _ => 0

/-- The point of a polyline at arc length `a ≥ 0` from its start. -/
noncomputable def along : List (Pt ℝ) → ℝ → Pt ℝ
  | [], _ => 0
  | [p], _ => p
  | p :: q :: l, a => if a < mag (q - p) then p + (a / mag (q - p)) • (q - p) else along (q :: l) (a - mag (q - p))

/-- The arc length of the point number `k` of a polyline. -/
noncomputable def reach (L : List (Pt ℝ)) (k : Nat) : ℝ := pathLen (L.take (k + 1))

/-- The calls of a `DartPosition`. -/
inductive Op
  | gotoArcLength (a : ℝ)
  | gotoNextSegment
  | leaveCircle (c : Pt ℝ) (r2 : ℝ)
  | intersectCircle (c : Pt ℝ) (r2 : ℝ)

/-- The effect of a call: its answer and the new state. -/
noncomputable def Op.run : Op → DP → Outcome (Bool × DP)
  | .gotoArcLength a, s => s.gotoArcLength a
  | .gotoNextSegment, s => s.gotoNextSegment
  | .leaveCircle c r2, s => s.leaveCircle c r2
  | .intersectCircle c r2, s => s.intersectCircle c r2

/-- A call does not go back behind the start of the current segment, and a circle is only intersected from the inside (the
current position lies inside, or the start of the current segment does not lie outside of it). -/
def Op.forward : Op → DP → Prop
  | .gotoArcLength a, s => s.arc ≤ a
  | .intersectCircle c r2, s => sqMag (s.pos - c) < r2 ∨ sqMag (s.p1 - c) ≤ r2
  | _, _ => True

/-- `Hist L s`: the position `s` on a dart with the points `L` was obtained by its constructor and calls that go forward. -/
inductive Hist (L : List (Pt ℝ)) : DP → Prop
  | start {i : DPI ℝ} {s : DP} : ((i.pts = L ∧ i.inc = 1 ∧ i.fin = L.length ∧ i.index = 0) ∨
      (i.pts = L.reverse ∧ i.inc = -1 ∧ i.fin = -1 ∧ i.index = L.length - 1)) → DP.start i = .ok s → Hist L s
  | call {s s' : DP} {b : Bool} (o : Op) : Hist L s → o.forward s → o.run s = .ok (b, s') → Hist L s'

end Verif.DartPos

import Verif.PointIter.Model
import Mathlib.Analysis.Real.Sqrt

/-!
# Positions on darts

Models the class `DartPosition` (src/geomap/cppmap.hxx:1477-1667), which is also exported to Python
(src/python_bindings/cppmapmodule.cxx:1434-1466).  `double` is modelled by the real numbers; where the code would compute a
NaN (lines 1613-1617: root of a negative number, or 0/0) the model takes the branch the code takes for a NaN.
-/

namespace Verif.DartPos
open Verif Verif.GeoMap Verif.PointIter

/-- `Vector2::squaredMagnitude` -/
def sqMag (v : Pt ℝ) : ℝ := v.1 * v.1 + v.2 * v.2

/-- `Vector2::magnitude` -/
noncomputable def mag (v : Pt ℝ) : ℝ := Real.sqrt (sqMag v)

/-- `dot(v, w)` -/
def dot (v w : Pt ℝ) : ℝ := v.1 * w.1 + v.2 * w.2

/-- The members of a `DartPosition` (cppmap.hxx:1661-1666); `dart_` is only kept for reference and left out. -/
structure DP where
  it : DPI ℝ
  seg : Nat
  arc : ℝ
  part : ℝ
  p1 : Pt ℝ
  p2 : Pt ℝ
  pos : Pt ℝ

/-- The constructor, cppmap.hxx:1480-1490, from the iterator over the points of the dart. -/
def DP.start (i : DPI ℝ) : Outcome DP :=
  i.deref.bind fun p => i.next.deref.bind fun q => .ok ⟨i.next, 0, 0, 0, p, q, p⟩

/-- cppmap.hxx:1492-1495 -/
def DP.atEnd (s : DP) : Bool := s.it.atEnd

/-- cppmap.hxx:1517-1520 -/
def DP.arcLength (s : DP) : ℝ := s.arc + s.part

/-- cppmap.hxx:1631-1643 `nextSegmentInternal` -/
noncomputable def DP.next (s : DP) : Outcome (Bool × DP) :=
  if s.it.atEnd then .ok (false, s)
  else if s.it.next.atEnd then
    .ok (false, { s with arc := s.arc + mag (s.p2 - s.p1), p1 := s.p2, it := s.it.next })
  else s.it.next.deref.bind fun q =>
    .ok (true, { s with
      arc := s.arc + mag (s.p2 - s.p1), p1 := s.p2, it := s.it.next, p2 := q, seg := s.seg + 1 })

/-- cppmap.hxx:1645-1659 `prevSegmentInternal` -/
noncomputable def DP.prev (s : DP) : Outcome (Bool × DP) :=
  if s.seg = 0 then .ok (false, s)
  else s.it.reverse.next.reverse.deref.bind fun q =>
    .ok (true, { s with
      p2 := s.p1, it := s.it.reverse.next.reverse, p1 := q, arc := s.arc - mag (s.p1 - q), seg := s.seg - 1 })

/-- cppmap.hxx:1541-1543: the loop that goes back, with at most `n` rounds -/
noncomputable def backLoop (a : ℝ) : Nat → DP → Outcome (Bool × DP)
  | 0, _ => .hang
  | n + 1, s =>
    if a < s.arc then s.prev.bind fun r => if r.1 then backLoop a n r.2 else .ok (false, r.2)
    else .ok (true, s)

/-- cppmap.hxx:1544-1560: the loop that goes on, with at most `n` rounds, and the end of the function -/
noncomputable def fwdLoop (a : ℝ) : Nat → DP → Outcome (Bool × DP)
  | 0, _ => .hang
  | n + 1, s =>
    if sqMag (s.p2 - s.p1) > (a - s.arc) * (a - s.arc) then
      .ok (true, { s with
        pos := s.p1 + ((a - s.arc) / mag (s.p2 - s.p1)) • (s.p2 - s.p1), part := a - s.arc })
    else s.next.bind fun r =>
      if r.1 then fwdLoop a n r.2 else .ok (false, { r.2 with pos := r.2.p1, part := 0 })

/-- cppmap.hxx:1539-1561 `gotoArcLength`; both loops end after at most one round per point of the dart (proved) -/
noncomputable def DP.gotoArcLength (a : ℝ) (s : DP) : Outcome (Bool × DP) :=
  (backLoop a (s.seg + 1) s).bind fun r =>
    if r.1 then fwdLoop a (s.it.pts.length + 1) r.2 else .ok (false, r.2)

/-- cppmap.hxx:1566-1572 `gotoNextSegment` -/
noncomputable def DP.gotoNextSegment (s : DP) : Outcome (Bool × DP) :=
  s.next.bind fun r => .ok (r.1, { r.2 with pos := r.2.p1, part := 0 })

/-- cppmap.hxx:1574-1580 `gotoPrevSegment` -/
noncomputable def DP.gotoPrevSegment (s : DP) : Outcome (Bool × DP) :=
  s.prev.bind fun r => .ok (r.1, { r.2 with pos := r.2.p1, part := 0 })

/-- cppmap.hxx:1584-1586 and 1602-1609: go on until the end of the segment is not inside the circle; the answer tells whether
there was such a segment -/
noncomputable def circleLoop (c : Pt ℝ) (r2 : ℝ) : Nat → DP → Outcome (Bool × DP)
  | 0, _ => .hang
  | n + 1, s =>
    if sqMag (s.p2 - c) < r2 then s.next.bind fun r => if r.1 then circleLoop c r2 n r.2 else .ok (false, r.2)
    else .ok (true, s)

/-- cppmap.hxx:1582-1591 `leaveCircle` -/
noncomputable def DP.leaveCircle (c : Pt ℝ) (r2 : ℝ) (s : DP) : Outcome (Bool × DP) :=
  (circleLoop c r2 (s.it.pts.length + 1) s).bind fun r =>
    .ok (!r.2.atEnd, { r.2 with pos := r.2.p2, part := mag (r.2.p2 - r.2.p1) })

/-- The number below the root in cppmap.hxx:1614-1616. -/
def radicand (c : Pt ℝ) (r2 : ℝ) (p1 p2 : Pt ℝ) : ℝ :=
  r2 * sqMag (p2 - p1) -
    (p2.1 * p1.2 - p1.1 * p2.2 + c.1 * (p2 - p1).2 - (p2 - p1).1 * c.2) *
    (p2.1 * p1.2 - p1.1 * p2.2 + c.1 * (p2 - p1).2 - (p2 - p1).1 * c.2)

/-- cppmap.hxx:1611-1624: the factor for the vector along the segment; `1` (the vector stays as it is) if `lambda` is a NaN -/
noncomputable def lambda (c : Pt ℝ) (r2 : ℝ) (p1 p2 : Pt ℝ) : ℝ :=
  if sqMag (p2 - p1) = 0 ∨ radicand c r2 p1 p2 < 0 then 1
  else (Real.sqrt (radicand c r2 p1 p2) - dot (p2 - p1) (p1 - c)) / sqMag (p2 - p1)

/-- cppmap.hxx:1593-1629 `intersectCircle` -/
noncomputable def DP.intersectCircle (c : Pt ℝ) (r2 : ℝ) (s : DP) : Outcome (Bool × DP) :=
  (circleLoop c r2 (s.it.pts.length + 1) s).bind fun r =>
    if r.1 then
      .ok (true, { r.2 with
        pos := r.2.p1 + lambda c r2 r.2.p1 r.2.p2 • (r.2.p2 - r.2.p1),
        part := mag (lambda c r2 r.2.p1 r.2.p2 • (r.2.p2 - r.2.p1)) })
    else .ok (false, { r.2 with pos := r.2.p2 })

end Verif.DartPos

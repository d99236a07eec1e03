import Verif.Resample.Model
import Verif.Polygon.Model
import Mathlib.Analysis.SpecialFunctions.Trigonometric.Inverse
import Mathlib.Analysis.SpecialFunctions.Complex.Arg

/-!
# The polygon functions of the Python module

Models parts of src/python_bindings/polygon.cxx and exporthelpers.hxx: index checks (exporthelpers.hxx:45-62, polygon.cxx:167-200), `curvatureList` and `tangentList`
(polygon.cxx:339-456), `composeTangentLists` (1411-1470), `ParabolaFit` (1472-1666), `markEdgeInLabelImage` and `removeEdgeFromLabelImage` (1670-1742)
and `intersectLine` (1754-1815).

Simplifications: `double` is modelled by the real numbers.  A Python exception is the outcome `precond`; an access outside of an array is `ub`.
-/

namespace Verif.PyPoly
open Verif Verif.GeoMap Verif.DartPos Verif.Polygon Verif.Resample

/-! ## Indices -/

/-- exporthelpers.hxx:45-56 `checkPythonIndex`: the index after the check.  The conversion to `unsigned int` makes negative numbers too large. -/
def checkPythonIndex (i : Int) (size : Nat) : Outcome Nat :=
  let j := if i < 0 then i + size else i
  if j < 0 ∨ (size : Int) ≤ j then .precond else .ok j.toNat

section
variable {K : Type} [Field K] [LinearOrder K] (dist : Pt K → Pt K → K)

/-- exporthelpers.hxx:58-64 `Array__getitem__` -/
def getItem (p : Poly K) (i : Int) : Outcome (Pt K) := (checkPythonIndex i p.pts.length).bind fun j => rd p.pts j

/-- polygon.cxx:168-173 `Polygon__setitem__` -/
def setItem (p : Poly K) (i : Int) (x : Pt K) : Outcome (Poly K) := (checkPythonIndex i p.pts.length).bind fun j => p.setPoint dist j x

/-- polygon.cxx:175-185 `insert` -/
def pyInsert (p : Poly K) (i : Int) (x : Pt K) : Outcome (Poly K) := (checkPythonIndex i (p.pts.length + 1)).bind fun j => p.insert dist j x

/-- polygon.cxx:187-192 `erase` (`__delitem__`) -/
def delItem (p : Poly K) (i : Int) : Outcome (Poly K) := (checkPythonIndex i (p.pts.length + 1)).bind fun j => p.erase j

/-- polygon.cxx:194-199 `split` -/
def pySplit (p : Poly K) (i : Int) : Outcome (Poly K × Poly K) := (checkPythonIndex i p.pts.length).bind fun j => p.split j
end

/-! ## Tangents and curvature -/

/-- conversion to `unsigned int` -/
def u32 (x : Int) : Nat := (x % 2 ^ 32).toNat

/-- polygon.cxx:350-351, 435-436: the arc length before the first triple; state is the sum -/
noncomputable def lenBody (p : List (Pt ℝ)) (i : Nat) (s : ℝ) : Outcome ℝ :=
  (rd p (i + 1)).bind fun b => (rd p i).bind fun a => .ok (s + mag (b - a))

/-- polygon.cxx:385-404 `ContinuousDirection`: `(prevAngle, offset)` -/
abbrev Cont := ℝ × ℝ

/-- polygon.cxx:394-406 `ContinuousDirection::operator()` -/
noncomputable def Cont.step (c : Cont) (angle : ℝ) : ℝ × Cont :=
  let a := angle + c.2
  let diff := a - c.1
  if |diff| > Real.pi then
    let delta := -⌊(diff + Real.pi) / (Real.pi * 2)⌋ * Real.pi * 2
    (a + delta, (a + delta, c.2 + delta))
  else (a, (a, c.2))

/-- polygon.cxx:366-382: the curvature of a triangle with the sides `s1`, `s2` and `s3` -/
noncomputable def curvature (s1 s2 s3 : Pt ℝ) : ℝ :=
  let a := mag s1
  let b := mag s2
  let gamma := (sqMag s1 + sqMag s2 - sqMag s3) / (2 * a * b)
  if gamma > -1 then
    if s1.1 * s3.2 - s3.1 * s1.2 < 0 then -2 * (Real.pi - Real.arccos gamma) / (a + b) else 2 * (Real.pi - Real.arccos gamma) / (a + b)
  else 0

/-- polygon.cxx:355-383: the loop of `curvatureList`; state `(pos, result)`.  The index `i + dx - 1` is computed in 32 bits. -/
noncomputable def curvBody (p : List (Pt ℝ)) (dx : Int) (i : Nat) (s : ℝ × List (ℝ × ℝ)) : Outcome (ℝ × List (ℝ × ℝ)) :=
  (rd p (u32 (i + dx))).bind fun b => (rd p i).bind fun a => (rd p (u32 (i + 2 * dx))).bind fun c => (rd p (u32 (i + dx - 1))).bind fun b' =>
    let pos := s.1 + mag (b - b')
    if mag (b - a) < 1e-8 ∨ mag (c - b) < 1e-8 then .ok (pos, s.2)
    else .ok (pos, s.2 ++ [(pos, curvature (b - a) (c - b) (c - a))])

/-- polygon.cxx:339-386 `curvatureList` -/
noncomputable def curvatureList (p : List (Pt ℝ)) (dx : Int) (skip : Nat) : Outcome (List (ℝ × ℝ)) :=
  if p.length < u32 (2 * dx + 2 * skip) then .precond
  else (forUp (lenBody p) (u32 (dx + skip - 1)) 0 0).bind fun pos =>
    (forUp (curvBody p dx) (u32 (p.length - 2 * dx - skip) - skip) skip (pos, [])).bind fun s => .ok s.2

/-- polygon.cxx:441-454: the loop of `tangentList`; state `(pos, makeContinuous, result)` -/
noncomputable def tangBody (p : List (Pt ℝ)) (dx : Nat) (i : Nat) (s : ℝ × Cont × List (ℝ × ℝ)) : Outcome (ℝ × Cont × List (ℝ × ℝ)) :=
  (rd p (i + 2 * dx)).bind fun c => (rd p i).bind fun a => (rd p (i + dx)).bind fun b => (rd p (i + dx - 1)).bind fun b' =>
    let pos := s.1 + mag (b - b')
    if sqMag (c - a) < 1e-14 then .ok (pos, s.2.1, s.2.2)
    else
      let r := s.2.1.step (Complex.arg ⟨(c - a).1, (c - a).2⟩)
      .ok (pos, r.2, s.2.2 ++ [(pos, r.1)])

/-- polygon.cxx:414-458 `tangentList`; `std::atan2(y, x)` is `Complex.arg (x + y i)` -/
noncomputable def tangentList (p : List (Pt ℝ)) (dx : Int) (skip : Nat) : Outcome (List (ℝ × ℝ)) :=
  if p.length < u32 (2 * dx + 2 * skip) then .precond
  else if dx < 1 then .precond
  else (forUp (lenBody p) (dx.toNat + skip - 1) 0 0).bind fun pos =>
    (forUp (tangBody p dx.toNat) (p.length - 2 * dx.toNat - skip - skip) skip (pos, ((0, 0), []))).bind fun s => .ok s.2.2

/-- polygon.cxx:1418-1424: append a list of tangents -/
noncomputable def appendFwd (off : ℝ) : Cont → List (ℝ × ℝ) → List (ℝ × ℝ) × Cont
  | c, [] => ([], c)
  | c, (l, a) :: t =>
    let r := c.step a
    let q := appendFwd off r.2 t
    ((l + off, r.1) :: q.1, q.2)

/-- polygon.cxx:1429-1436: append a list of tangents backwards (`t` is the reversed list) -/
noncomputable def appendBwd (off : ℝ) : Cont → List (ℝ × ℝ) → List (ℝ × ℝ) × Cont
  | c, [] => ([], c)
  | c, (l, a) :: t =>
    let r := c.step (a + Real.pi)
    let q := appendBwd off r.2 t
    ((off - l, r.1) :: q.1, q.2)

/-- polygon.cxx:1411-1439 `appendTangentList`: the appended entries, the new arc length offset and the state of the angles -/
noncomputable def appendTangentList (off : ℝ) (t : List (ℝ × ℝ)) (length : ℝ) (c : Cont) : List (ℝ × ℝ) × ℝ × Cont :=
  if length > 0 then
    let r := appendFwd off c t
    (r.1, off + length, r.2)
  else
    let r := appendBwd (off + -length) c t.reverse
    (r.1, off + -length, r.2)

/-- polygon.cxx:1458-1470: the loop of `composeTangentLists` -/
noncomputable def composeLoop : ℝ → Cont → List (List (ℝ × ℝ) × ℝ) → List (ℝ × ℝ)
  | _, _, [] => []
  | off, c, (t, len) :: l => (appendTangentList off t len c).1 ++ composeLoop (appendTangentList off t len c).2.1 (appendTangentList off t len c).2.2 l

/-- polygon.cxx:1453-1470 `composeTangentLists` -/
noncomputable def composeTangentLists (l : List (List (ℝ × ℝ) × ℝ)) : List (ℝ × ℝ) := composeLoop 0 (0, 0) l

/-! ## Parabolas -/

/-- polygon.cxx:1472-1489 `ParabolaFit` without the cached parameters -/
structure ParabolaFit where
  cont : Cont
  sumAl4 : ℝ
  sumAl3 : ℝ
  sumAl2 : ℝ
  sumAl : ℝ
  sumAl2Theta : ℝ
  sumAlTheta : ℝ
  sumTheta : ℝ
  sumTheta2 : ℝ
  count : Nat

/-- polygon.cxx:1483-1490, the constructor -/
noncomputable def ParabolaFit.new : ParabolaFit := ⟨(0, 0), 0, 0, 0, 0, 0, 0, 0, 0, 0⟩

/-- polygon.cxx:1496-1514: one pair (`count` is increased for the whole list at the end) -/
noncomputable def ParabolaFit.addPair (f : ParabolaFit) (x : ℝ × ℝ) : ParabolaFit :=
  let al := x.1
  let r := f.cont.step x.2
  let theta := r.1
  { cont := r.2, sumAl := f.sumAl + al, sumAl2 := f.sumAl2 + al * al, sumAl3 := f.sumAl3 + al * al * al, sumAl4 := f.sumAl4 + al * al * al * al,
    sumAl2Theta := f.sumAl2Theta + theta * al * al, sumAlTheta := f.sumAlTheta + theta * al, sumTheta := f.sumTheta + theta,
    sumTheta2 := f.sumTheta2 + theta * theta, count := f.count }

/-- polygon.cxx:1492-1518 `addTangentList` -/
noncomputable def ParabolaFit.addTangentList (f : ParabolaFit) (l : List (ℝ × ℝ)) : ParabolaFit :=
  let g := l.foldl ParabolaFit.addPair f
  { g with count := g.count + l.length }

/-- polygon.cxx:1642-1654: the linear system that `ensureFit` hands to `linearSolve` -/
def ParabolaFit.Solves (f : ParabolaFit) (p0 p1 p2 : ℝ) : Prop :=
  f.sumAl4 * p0 + f.sumAl3 * p1 + f.sumAl2 * p2 = f.sumAl2Theta ∧
  f.sumAl3 * p0 + f.sumAl2 * p1 + f.sumAl * p2 = f.sumAlTheta ∧
  f.sumAl2 * p0 + f.sumAl * p1 + f.count * p2 = f.sumTheta

/-- polygon.cxx:1520-1532 `sumOfSquaredErrors0`, for the parameters found by `ensureFit` -/
noncomputable def ParabolaFit.sumOfSquaredErrors0 (f : ParabolaFit) (p0 p1 p2 : ℝ) : ℝ :=
  if f.count = 0 then 0
  else f.sumTheta2 + p0 * p0 * f.sumAl4 + p1 * p1 * f.sumAl2 + p2 * p2 * f.count + 2 * p0 * p1 * f.sumAl3 + 2 * p0 * p2 * f.sumAl2 - 2 * p0 * f.sumAl2Theta +
    2 * p1 * p2 * f.sumAl - 2 * p1 * f.sumAlTheta - 2 * p2 * f.sumTheta

/-! ## Label image -/

/-- A label image: width, height and the value of a pixel -/
structure Img where
  w : Int
  h : Int
  px : Int → Int → Int

/-- Scanlines: first line, number of lines and the segments of a line (from polygon.hxx `Scanlines`) -/
structure Lines where
  start : Int
  count : Nat
  segs : Int → List (Int × Int)

/-- polygon.cxx:1693-1700, 1726-1738: the inner loop over `x`, `n` pixels from `x` on; the list collects the output.  An access outside of the image is `ub`. -/
def rowLoop (f : Int → Int × Bool) (y : Int) : Nat → Int → Img × List (Int × Int) → Outcome (Img × List (Int × Int))
  | 0, _, s => .ok s
  | n + 1, x, s =>
    if 0 ≤ x ∧ x < s.1.w ∧ 0 ≤ y ∧ y < s.1.h then
      let r := f (s.1.px x y)
      rowLoop f y n (x + 1)
        ({ s.1 with
            px := fun a b => if a = x ∧ b = y then r.1 else s.1.px a b }, if r.2 then s.2 ++ [(x, y)] else s.2)
    else .ub

/-- polygon.cxx:1682-1700, 1715-1738: the segments of one line with clipping in x direction -/
def lineLoop (f : Int → Int × Bool) (y : Int) : List (Int × Int) → Img × List (Int × Int) → Outcome (Img × List (Int × Int))
  | [], s => .ok s
  | seg :: t, s =>
    let b := if seg.1 < 0 then 0 else seg.1
    let e := if seg.2 > s.1.w then s.1.w else seg.2
    (rowLoop f y (e - b).toNat b s).bind fun s => lineLoop f y t s

/-- polygon.cxx:1679-1700, 1712-1740: `n` lines from `y` on -/
def imgLoop (f : Int → Int × Bool) (l : Lines) : Nat → Int → Img × List (Int × Int) → Outcome (Img × List (Int × Int))
  | 0, _, s => .ok s
  | n + 1, y, s =>
    if l.start ≤ y ∧ y < l.start + l.count then (lineLoop f y (l.segs y) s).bind fun s => imgLoop f l n (y + 1) s else .ub

/-- polygon.cxx:1694-1699: the new value of a marked pixel -/
def markVal (old : Int) : Int × Bool := (if old < 0 then old - 1 else -1, false)

/-- polygon.cxx:1670-1701 `markEdgeInLabelImage` (GrayValue is `float` in the code, exact for integers up to 2^24; modelled by integers) -/
def markEdge (l : Lines) (img : Img) : Outcome Img :=
  (imgLoop markVal l (min img.h (l.start + l.count) - max 0 l.start).toNat (max 0 l.start) (img, [])).bind fun s => .ok s.1

/-- polygon.cxx:1727-1736: the new value of a pixel and whether it is returned -/
def removeVal (substitute old : Int) : Int × Bool := if old ≠ -1 then (old + 1, false) else (substitute, true)

/-- polygon.cxx:1703-1742 `removeEdgeFromLabelImage` -/
def removeEdge (l : Lines) (substitute : Int) (img : Img) : Outcome (Img × List (Int × Int)) :=
  imgLoop (removeVal substitute) l (min img.h (l.start + l.count) - max 0 l.start).toNat (max 0 l.start) (img, [])

/-! ## Intersection with a half-plane -/

/-- polygon.cxx:1771-1779: the signed distance of `p` from the line -/
noncomputable def lineDist (a b p : Pt ℝ) : ℝ :=
  let n : Pt ℝ := ((b - a).2, -(b - a).1)
  dot (p - a) ((1 / mag n) • n)

/-- The variables of the loop, polygon.cxx:1781-1784. -/
structure Cut where
  result : List (List (Pt ℝ))
  current : List (Pt ℝ)
  inside : Bool
  prevDist : ℝ

/-- `polygon[pointIndex-1]` -/
def prevPt (poly : List (Pt ℝ)) (i : Nat) : Outcome (Pt ℝ) := if i = 0 then .ub else rd poly (i - 1)

/-- polygon.cxx:1792-1794, 1803-1805: the point of intersection -/
noncomputable def cutPoint (poly : List (Pt ℝ)) (i : Nat) (q : Pt ℝ) (prevDist dist : ℝ) : Outcome (Pt ℝ) :=
  (prevPt poly i).bind fun p => (quot prevDist (dist - prevDist)).bind fun t => .ok (p - t • (q - p))

/-- polygon.cxx:1785-1809: the loop body -/
noncomputable def cutBody (a b : Pt ℝ) (poly : List (Pt ℝ)) (i : Nat) (s : Cut) : Outcome Cut :=
  (rd poly i).bind fun q =>
    let dist := lineDist a b q
    if dist < 0 then
      if s.inside then (cutPoint poly i q s.prevDist dist).bind fun c => .ok ⟨s.result ++ [s.current ++ [c]], [], false, dist⟩
      else .ok { s with
        prevDist := dist }
    else if !s.inside then (cutPoint poly i q s.prevDist dist).bind fun c => .ok { s with
      current := s.current ++ [c] ++ [q], inside := true }
    else .ok { s with
      current := s.current ++ [q] }

/-- polygon.cxx:1754-1815 `intersectLine` -/
noncomputable def intersectLine (poly : List (Pt ℝ)) (a b : Pt ℝ) : Outcome (List (List (Pt ℝ))) :=
  if poly.length = 0 then .ok []
  else if mag (((b - a).2, -(b - a).1) : Pt ℝ) = 0 then .ok [poly]
  else (rd poly 0).bind fun p0 =>
    (forUp (cutBody a b poly) poly.length 0 ⟨[], [], decide (lineDist a b p0 ≥ 0), 0⟩).bind fun s =>
      .ok (if s.inside then s.result ++ [s.current] else s.result)

end Verif.PyPoly

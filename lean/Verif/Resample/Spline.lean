import Verif.Resample.Lemmas

/-!
# Control points of splines: integrals over a polygon

Models src/geomap/polygon.hxx:1474-1574 and 1635-1637: `spline3Integral`, `singleSpline3ConvolvePolygon`, and the part of
`polygonSplineControlPoints` that inserts the positions of the control points into the polygon and integrates around the inner ones.

Simplifications: as in `Verif/Resample/Model.lean`.  The equations that are solved for the control points (1639-1701, VIGRA's `linearSolve` and
`BSpline`) and the continuation of the polygon at its ends (1576-1633) are not modelled.
-/

namespace Verif.Resample
open Verif Verif.GeoMap Verif.DartPos

/-- polygon.hxx:1476-1495 `spline3Integral` (the array `p` is not used) -/
noncomputable def spline3Integral (p1 p2 : Pt ℝ) (t1 t2 : ℝ) : Pt ℝ :=
  if t1 ≥ 1 then
    ((t1 - t2) / 120) •
      ((-80 + t1 * (80 + 2 * t2 * (t2 - 10) + t1 * (3 * t2 - 30 + 4 * t1)) + t2 * (40 + t2 * (t2 - 10))) • p1 +
       (-80 + t1 * (40 + t2 * (3 * t2 - 20) + t1 * (2 * t2 - 10 + t1)) + t2 * (80 + t2 * (4 * t2 - 30))) • p2)
  else
    ((t2 - t1) / 120) •
      ((40 + t1 * (2 * t2 * (3 * t2 - 10) + t1 * (9 * t2 - 30 + 12 * t1)) + t2 * t2 * (3 * t2 - 10)) • p1 +
       (40 + t1 * (t2 * (9 * t2 - 20) + t1 * (6 * t2 - 10 + 3 * t1)) + t2 * t2 * (12 * t2 - 30)) • p2)

/-- polygon.hxx:1508-1513: one round of the loop to the right -/
noncomputable def convolveRight (arc : List ℝ) (poly : List (Pt ℝ)) (c : ℝ) (j : Nat) (sum : Pt ℝ) : Outcome (Pt ℝ) :=
  (rd arc (j - 1)).bind fun a1 => (rd arc j).bind fun a2 => (rd poly (j - 1)).bind fun p1 => (rd poly j).bind fun p2 =>
    .ok (sum + spline3Integral p1 p2 (a1 - c) (a2 - c))

/-- polygon.hxx:1514-1519: one round of the loop to the left -/
noncomputable def convolveLeft (arc : List ℝ) (poly : List (Pt ℝ)) (c : ℝ) (j : Nat) (sum : Pt ℝ) : Outcome (Pt ℝ) :=
  (rd arc (j + 1)).bind fun a1 => (rd arc j).bind fun a2 => (rd poly (j + 1)).bind fun p1 => (rd poly j).bind fun p2 =>
    .ok (sum - spline3Integral (-p1) (-p2) (c - a1) (c - a2))

/-- polygon.hxx:1497-1522 `singleSpline3ConvolvePolygon` (the indices are not negative where it is called) -/
noncomputable def spline3Convolve (arc : List ℝ) (poly : List (Pt ℝ)) (left center right : Nat) : Outcome (Pt ℝ) :=
  (rd arc center).bind fun c =>
    (forUp (convolveRight arc poly c) (right - center) (center + 1) 0).bind fun s =>
      forDown (convolveLeft arc poly c) (center - left) (center - 1) s

/-- The arrays `augmentedPoly`, `augmentedArcLength` and `splineIndices`, and `l` -/
structure Aug where
  poly : List (Pt ℝ)
  arc : List ℝ
  idx : List Nat
  l : Nat

/-- polygon.hxx:1554-1560: `while(d > l)`; `a0` and `p0` belong to the start of the segment, `p1` to its end -/
noncomputable def augWhile (a0 d : ℝ) (p0 p1 : Pt ℝ) : Nat → Aug → Outcome Aug
  | 0, _ => .hang
  | n + 1, s => if d > s.l then
      (quot (s.l - a0) (d - a0)).bind fun o => (wr s.idx s.l s.poly.length).bind fun idx =>
        augWhile a0 d p0 p1 n ⟨s.poly ++ [(1 - o) • p0 + o • p1], s.arc ++ [(s.l : ℝ)], idx, s.l + 1⟩
    else .ok s

/-- polygon.hxx:1551-1568: the body of the loop; `arc` holds the scaled arc lengths -/
noncomputable def augBody (arc : List ℝ) (poly : List (Pt ℝ)) (fuel k : Nat) (s : Aug) : Outcome Aug :=
  (rd arc k).bind fun d => (rd arc (k - 1)).bind fun a0 => (rd poly (k - 1)).bind fun p0 => (rd poly k).bind fun p1 =>
    (augWhile a0 d p0 p1 fuel s).bind fun s =>
      if d = s.l then (wr s.idx s.l s.poly.length).bind fun idx => .ok ⟨s.poly ++ [p1], s.arc ++ [d], idx, s.l + 1⟩
      else .ok ⟨s.poly ++ [p1], s.arc ++ [d], s.idx, s.l⟩

/-- polygon.hxx:1530-1573: the first part of `polygonSplineControlPoints`.  `m` is `segmentCount`. -/
noncomputable def augment (fuel : Nat) (poly : List (Pt ℝ)) (m : Nat) : Outcome Aug :=
  if poly.length < 4 then .precond
  else (rd (arcLengthList poly) (poly.length - 1)).bind fun len => (quot m len).bind fun scale => (rd poly 0).bind fun p0 =>
    (forUp (augBody ((arcLengthList poly).map (· * scale)) poly fuel) (poly.length - 2) 1 ⟨[p0], [0], List.replicate (m + 1) 0, 1⟩).bind fun s =>
      (rd poly (poly.length - 1)).bind fun pl => (wr s.idx m s.poly.length).bind fun idx =>
        .ok ⟨s.poly ++ [pl], s.arc ++ [(m : ℝ)], idx, s.l⟩

/-- polygon.hxx:1635-1637: `integrals[k]` for `2 ≤ k ≤ segmentCount-2`.  At this point the arrays have been continued beyond their ends; this does not change
the elements used here. -/
noncomputable def innerIntegral (s : Aug) (k : Nat) : Outcome (Pt ℝ) :=
  (rd s.idx (k - 2)).bind fun a => (rd s.idx k).bind fun b => (rd s.idx (k + 2)).bind fun c => spline3Convolve s.arc s.poly a b c

end Verif.Resample

import Verif.Resample.Lemmas

/-!
# Resampling with a Gaussian filter

Models src/geomap/polygon.hxx:1311-1470: `resamplePolygonGaussianFilter` and its two helpers.

Simplifications: as in `Verif/Resample/Model.lean`.  VIGRA's `Gaussian<double>` is not in the repository: its radius and its values are
arbitrary (`Kernel`).  The loops without a bound take a number of rounds `fuel`; `hang` is the outcome if it does not suffice.
-/

namespace Verif.Resample
open Verif Verif.GeoMap Verif.DartPos

/-- `vigra::Gaussian<double>`: `radius()` and `operator()` -/
structure Kernel where
  radius : ℝ
  w : ℝ → ℝ

/-- `l[k]` with an `int` -/
def rdI {α : Type} (l : List α) (k : Int) : Outcome α := if 0 ≤ k then rd l k.toNat else .ub

/-- `sum` and `norm` -/
abbrev GSum := Pt ℝ × ℝ

/-- polygon.hxx:1331-1350 and 1386-1399 (`dir` = 1), 1353-1370 and 1401-1414 (`dir` = -1): the loop from index `j` on; `sample j` is the
position and the point for this index.  `diff < -g.radius()` is written as `-diff > g.radius()`. -/
noncomputable def gaussLoop (g : Kernel) (sample : Int → Outcome (ℝ × Pt ℝ)) (cur : ℝ) (dir : Int) : Nat → Int → GSum → Outcome GSum
  | 0, _, _ => .hang
  | n + 1, j, s => (sample j).bind fun q =>
    if dir * (q.1 - cur) > g.radius then .ok s
    else gaussLoop g sample cur dir n (j + dir) (s.1 + g.w (q.1 - cur) • q.2, s.2 + g.w (q.1 - cur))

/-- polygon.hxx:1333-1343: to the right, reflected at the last point -/
noncomputable def reflectRight (arc : List ℝ) (poly : List (Pt ℝ)) (j : Int) : Outcome (ℝ × Pt ℝ) :=
  let last : Int := (arc.length : Int) - 1
  let k := if j > last then 2 * last - j else j
  (rdI arc last).bind fun al => (rdI poly last).bind fun pl => (rdI arc k).bind fun a => (rdI poly k).bind fun p =>
    .ok (if j > last then (2 * al - a, (2 : ℝ) • pl - p) else (a, p))

/-- polygon.hxx:1355-1363: to the left, reflected at the first point -/
noncomputable def reflectLeft (arc : List ℝ) (poly : List (Pt ℝ)) (j : Int) : Outcome (ℝ × Pt ℝ) :=
  let k : Int := |j|
  (rdI poly 0).bind fun p0 => (rdI arc k).bind fun a => (rdI poly k).bind fun p => .ok (if j < 0 then (-a, (2 : ℝ) • p0 - p) else (a, p))

/-- polygon.hxx:1388-1393: to the right, cyclic (`%` rounds to zero) -/
noncomputable def cyclicRight (arc : List ℝ) (poly : List (Pt ℝ)) (j : Int) : Outcome (ℝ × Pt ℝ) :=
  let size : Int := (arc.length : Int) - 1
  let k := j.tmod size
  (rdI arc size).bind fun total => (rdI arc k).bind fun a => (rdI poly k).bind fun p => .ok (if j > size - 1 then a + total else a, p)

/-- polygon.hxx:1403-1408: to the left, cyclic -/
noncomputable def cyclicLeft (arc : List ℝ) (poly : List (Pt ℝ)) (j : Int) : Outcome (ℝ × Pt ℝ) :=
  let size : Int := (arc.length : Int) - 1
  let k := (j + size).tmod size
  (rdI arc size).bind fun total => (rdI arc k).bind fun a => (rdI poly k).bind fun p => .ok (if j < 0 then a - total else a, p)

/-- polygon.hxx:1372, 1416: `return sum / norm` (a norm of zero gives NaN) -/
noncomputable def gaussMean (s : GSum) : Outcome (Pt ℝ) := if s.2 = 0 then .ub else .ok ((1 / s.2) • s.1)

/-- polygon.hxx:1313-1373 `singleGaussianConvolvePolygonReflective` -/
noncomputable def gaussReflective (g : Kernel) (fuel : Nat) (arc : List ℝ) (poly : List (Pt ℝ)) (i : Int) (cur : ℝ) : Outcome (Pt ℝ) :=
  (gaussLoop g (reflectRight arc poly) cur 1 fuel i (0, 0)).bind fun s =>
    (gaussLoop g (reflectLeft arc poly) cur (-1) fuel (i - 1) s).bind gaussMean

/-- polygon.hxx:1375-1424 `singleGaussianConvolvePolygonCyclic` -/
noncomputable def gaussCyclic (g : Kernel) (fuel : Nat) (arc : List ℝ) (poly : List (Pt ℝ)) (i : Int) (cur : ℝ) : Outcome (Pt ℝ) :=
  (gaussLoop g (cyclicRight arc poly) cur 1 fuel i (0, 0)).bind fun s =>
    (gaussLoop g (cyclicLeft arc poly) cur (-1) fuel (i - 1) s).bind gaussMean

/-- polygon.hxx:1455-1465: the body of the loop; state `(simple, l)` -/
noncomputable def gaussBody (g : Kernel) (fuel : Nat) (isOpen : Bool) (poly : List (Pt ℝ)) (step : ℝ) (k : Nat) (s : List (Pt ℝ) × Nat) :
    Outcome (List (Pt ℝ) × Nat) :=
  (search (arcLengthList poly) (k * step) (poly.length - s.2) s.2).bind fun l =>
    (if isOpen then gaussReflective g fuel (arcLengthList poly) poly l (k * step)
      else gaussCyclic g fuel (arcLengthList poly) poly l (k * step)).bind fun p => .ok (s.1 ++ [p], l)

/-- polygon.hxx:1428-1470 `resamplePolygonGaussianFilter` -/
noncomputable def gaussianFilter (g : Kernel) (fuel : Nat) (poly simple : List (Pt ℝ)) (dist : ℝ) : Outcome (List (Pt ℝ)) :=
  if poly.length ≤ 2 then .ok poly
  else (rd (arcLengthList poly) (poly.length - 1)).bind fun len =>
    if ¬ len > g.radius then .precond
    else (rd poly (poly.length - 1)).bind fun last => (rd poly 0).bind fun first => (quot len dist).bind fun q =>
      (forUp (gaussBody g fuel (decide (last ≠ first)) poly (len / ⌈q⌉)) ⌈q⌉.toNat 0 (simple, 0)).bind fun s =>
        (if last ≠ first then gaussReflective g fuel (arcLengthList poly) poly ((poly.length : Int) - 1) len else rd s.1 0).bind fun p =>
          .ok (s.1 ++ [p])

end Verif.Resample

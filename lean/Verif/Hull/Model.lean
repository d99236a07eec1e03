import Verif.Outcome
import Mathlib.Algebra.Field.Basic
import Mathlib.Algebra.Order.Field.Basic

/-!
# Convex hulls

Models `convexHull` (src/geomap/polygon.hxx:744-831).

Simplifications: coordinates are elements of an ordered field; the array `result` with the pointer `currentEnd` is a stack
(last point first); `endSegment`, which always is `*currentEnd - currentEnd[-1]`, is computed where it is used;
`std::sort` is a parameter.
-/

namespace Verif.Hull
open Verif

variable {K : Type} [Field K] [LinearOrder K]

/-- a point -/
abbrev Pt (K : Type) := K × K

/-- polygon.hxx:752-755 `CCWCompare(p0)(a, b)` -/
def ccwCompare (p a b : Pt K) : Bool := decide (0 < (a.2 - p.2) * (b.1 - p.1) - (a.1 - p.1) * (b.2 - p.2))

/-- polygon.hxx:773-782: one step of the search for the extremal point -/
def better (best : Pt K × Nat) (x : Pt K × Nat) : Pt K × Nat :=
  let yDiff := x.1.2 - best.1.2
  if 0 < yDiff ∨ (yDiff = 0 ∧ x.1.1 < best.1.1) then x else best

/-- polygon.hxx:771-782: the extremal point (max. y, then min. x) and its index -/
def extreme (a : Pt K) (l : List (Pt K)) : Pt K × Nat := (l.zipIdx 1).foldl better (a, 0)

/-- `squaredMagnitude()` -/
def sqMag (v : Pt K) : K := v.1 * v.1 + v.2 * v.2

/-- polygon.hxx:799-826: the loop for one point; reading before the start of `result` is undefined -/
def scanPoint (o : Pt K) : List (Pt K) → Outcome (List (Pt K))
  | t :: u :: rest =>
    let endSegment := t - u
    let diff := o - u
    let sa2 := diff.1 * endSegment.2 - endSegment.1 * diff.2
    if 0 < sa2 then .ok (o :: t :: u :: rest)
    else if sa2 = 0 then .ok (if sqMag endSegment < sqMag diff then o :: u :: rest else t :: u :: rest)
    else scanPoint o (u :: rest)
  | _ => .ub

/-- polygon.hxx:797-827: Graham's scan -/
def scan : List (Pt K) → List (Pt K) → Outcome (List (Pt K))
  | [], stack => .ok stack
  | o :: os, stack => (scanPoint o stack).bind fun s => scan os s

/-- polygon.hxx:789-830: the scan of the sorted points, starting with the first one; closing the polygon -/
def finish (p : Pt K) : List (Pt K) → Outcome (List (Pt K))
  | o :: os => (scan os [o, p]).bind fun s => .ok ((p :: s).reverse)
  | [] => .ub

/-- polygon.hxx:761-831 `convexHull`; what is appended to `chull` -/
def convexHull (sort : (Pt K → Pt K → Bool) → List (Pt K) → List (Pt K)) (poly : List (Pt K)) : Outcome (List (Pt K)) :=
  match poly with
  | a :: b :: l =>
    let e := extreme a (b :: l)
    finish e.1 (sort (ccwCompare e.1) ((a :: b :: l).eraseIdx e.2))
  | _ => .precond

end Verif.Hull

import Verif.Outcome
import Verif.GeoMap.Model
import Mathlib.Algebra.Order.Group.Abs
import Mathlib.Algebra.Order.Field.Basic

/-!
# Simplifying polygons

Models `simplifyPolygon` (src/geomap/polygon.hxx:833-937).

Simplifications: `double` is an ordered field `K`, `std::sqrt` is a parameter.  An iterator range
`[polyBegin, polyEnd)` is the list of its points, `splitPos` an index into it, `polyEnd` is `none`.
The recursion gets the length of the range as fuel.
-/

namespace Verif.Simplify
open Verif Verif.GeoMap

section
variable {K : Type} [Field K] [LinearOrder K]

/-- `squaredMagnitude` of the difference -/
def dist2 (p q : Pt K) : K := (p.1 - q.1) * (p.1 - q.1) + (p.2 - q.2) * (p.2 - q.2)

/-- polygon.hxx:865 `fabs(dot(*it - *polyBegin, normal))` with the normal of lines 856-859 -/
def lineDist (sqrt : K → K) (a b p : Pt K) : K :=
  let len := sqrt (dist2 b a)
  let n : Pt K := ((b.2 - a.2) / len, -(b.1 - a.1) / len)
  |(p.1 - a.1) * n.1 + (p.2 - a.2) * n.2|

/-- polygon.hxx:863-871 and 877-885: the search for the most distant point; `i` is the index of the
first point of the list. -/
def search (d : Pt K → K) : Nat → Option Nat × K → List (Pt K) → Option Nat × K
  | _, best, [] => best
  | i, best, p :: l => search d (i + 1) (if best.2 < d p then (some i, d p) else best) l

/-- polygon.hxx:889-905: the point that is about equally far from both ends -/
def searchMid (d : Pt K → K) : Nat → Nat × K → List (Pt K) → Nat × K
  | _, best, [] => best
  | i, best, p :: l => searchMid d (i + 1) (if d p < best.2 then (i, d p) else best) l

/-- polygon.hxx:887-905: the point found by the search, otherwise the middle if the step is too large -/
def splitPos.pick (maxStep2 : Option K) (r : Option Nat) (a : Pt K) (inner : List (Pt K)) (b : Pt K) :
    Option Nat :=
  match r, maxStep2, inner with
  | some i, _, _ => some i
  | none, some m, p :: l =>
    if m < dist2 b a then
      let d := fun p => |dist2 p a - dist2 p b|
      some (searchMid d 2 (1, d p) l).1
    else none
  | none, _, _ => none

/-- polygon.hxx:841-905: the split point of a range with the given first, inner and last points; `tiny`
is the literal `1e-16` -/
def splitPos (sqrt : K → K) (tiny eps : K) (maxStep2 : Option K) (a : Pt K) (inner : List (Pt K))
    (b : Pt K) : Option Nat :=
  let r := if tiny < dist2 b a then search (lineDist sqrt a b) 1 (none, eps) inner
    else search (fun p => sqrt (dist2 p a)) 1 (none, eps) inner
  splitPos.pick maxStep2 r.1 a inner b

/-- polygon.hxx:907-914: both halves of a range split at an index, `h` is the recursive call -/
def recurse (h : List (Pt K) → Outcome (List (Pt K))) (l : List (Pt K)) : Option Nat → Outcome (List (Pt K))
  | none => .ok []
  | some i =>
    (h (l.take (i + 1))).bind fun r1 =>
      match l[i]? with
      | none => .ub
      | some s => (h (l.drop i)).bind fun r2 => .ok (r1 ++ [s] ++ r2)

/-- polygon.hxx:833-916 `simplifyPolygonHelper`: the points appended to `simple` -/
def helper (sqrt : K → K) (tiny eps : K) (maxStep2 : Option K) : Nat → List (Pt K) → Outcome (List (Pt K))
  | 0, _ => .hang
  | n + 1, l =>
    match l with
    | [] => .ok []
    | [_] => .ok []
    | a :: l' =>
      match l'.getLast? with
      | none => .ok []
      | some b =>
        if l'.dropLast = [] then .ok []
        else
          recurse (helper sqrt tiny eps maxStep2 n) l (splitPos sqrt tiny eps maxStep2 a l'.dropLast b)

/-- polygon.hxx:918-926 and 928-937 `simplifyPolygon`, starting with an empty `simple`; the second version
passes `maxStep * maxStep` -/
def simplifyPolygon (sqrt : K → K) (tiny : K) (poly : List (Pt K)) (eps : K) (maxStep : Option K) :
    Outcome (List (Pt K)) :=
  match poly.head?, poly.getLast? with
  | some a, some b =>
    (helper sqrt tiny eps (maxStep.map fun m => m * m) (poly.length + 1) poly).bind fun r =>
      .ok ([a] ++ r ++ [b])
  | _, _ => .ub

end
end Verif.Simplify

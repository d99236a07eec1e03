import Verif.Polygon.Model
import Mathlib.Algebra.BigOperators.Group.Finset.Basic
import Mathlib.Algebra.BigOperators.Intervals

/-!
# Specification: what the caches of a polygon should contain, and histories of calls
-/

namespace Verif.Polygon
open Verif Verif.GeoMap

variable {K : Type}

/-- The length of a polygon: sum of the lengths of its segments. -/
def trueLength [Field K] (dist : Pt K → Pt K → K) (l : List (Pt K)) : K :=
  ∑ i ∈ Finset.range (l.length - 1), dist (l.getD i (0, 0)) (l.getD (i + 1) (0, 0))

/-- The area of the triangle spanned by the origin and the segment `p q` (positive if clockwise in a
coordinate system with upward y axis). -/
def triangle [Field K] (p q : Pt K) : K := (q.1 * p.2 - p.1 * q.2) / 2

/-- The partial area: the sum of the areas of the triangles between the origin and the segments. -/
def trueArea [Field K] (l : List (Pt K)) : K :=
  ∑ i ∈ Finset.range (l.length - 1), triangle (l.getD i (0, 0)) (l.getD (i + 1) (0, 0))

/-- `b` is the bounding box of the points: empty iff there are no points; otherwise all points are
inside and each side is attained. -/
def IsBoundingBox [LinearOrder K] (b : Box K) (l : List (Pt K)) : Prop :=
  match b with
  | none => l = []
  | some (lo, hi) => (∀ p ∈ l, lo.1 ≤ p.1 ∧ p.1 ≤ hi.1 ∧ lo.2 ≤ p.2 ∧ p.2 ≤ hi.2) ∧
      (∃ p ∈ l, p.1 = lo.1) ∧ (∃ p ∈ l, p.1 = hi.1) ∧ (∃ p ∈ l, p.2 = lo.2) ∧ (∃ p ∈ l, p.2 = hi.2)

/-- The calls on a polygon. `splitRest` is the polygon returned by `split`, `splitKeep` what is left. -/
inductive Call (K : Type) where
  | pushBack (v : Pt K)
  | extend (other : Poly K)
  | concatenate (other : Poly K) (atEnd rev : Bool)
  | setPoint (i : Nat) (x : Pt K)
  | erase (i : Nat)
  | insert (i : Nat) (x : Pt K)
  | insertRange (i : Nat) (l : List (Pt K))
  | splitKeep (i : Nat)
  | splitRest (i : Nat)
  | reverse
  | swapPoints (l : List (Pt K))
  | clear
  | queryLength
  | queryArea
  | queryBox

/-- the polygon passed to a call -/
def Call.other : Call K → Option (Poly K)
  | .extend q => some q
  | .concatenate q _ _ => some q
  | _ => none

/-- the polygon after a call -/
def Call.run [Field K] [LinearOrder K] (dist : Pt K → Pt K → K) (p : Poly K) : Call K → Outcome (Poly K)
  | .pushBack v => .ok (p.pushBack dist v)
  | .extend q => .ok (p.extend dist q)
  | .concatenate q e r => .ok (p.concatenate dist q e r)
  | .setPoint i x => p.setPoint dist i x
  | .erase i => p.erase i
  | .insert i x => p.insert dist i x
  | .insertRange i l => p.insertRange i l
  | .splitKeep i => p.split i >>= fun r => .ok r.1
  | .splitRest i => p.split i >>= fun r => .ok r.2
  | .reverse => .ok p.reverse
  | .swapPoints l => .ok (p.swapPoints l).2
  | .clear => .ok p.clear
  | .queryLength => .ok (p.length dist).2
  | .queryArea => .ok p.partialArea.2
  | .queryBox => .ok p.boundingBox.2

/-- The polygons that can be produced by any sequence of calls satisfying `allow`; arguments are themselves
such polygons. -/
inductive Made [Field K] [LinearOrder K] (dist : Pt K → Pt K → K) (allow : Poly K → Call K → Prop) : Poly K → Prop
  | default : Made dist allow .default
  | ofPoints (l : List (Pt K)) : Made dist allow (.ofPoints l)
  | call {p p' : Poly K} (c : Call K) : Made dist allow p → (∀ q, c.other = some q → Made dist allow q) →
      allow p c → c.run dist p = .ok p' → Made dist allow p'

/-- The documented precondition of `Edge::concatenate`: both edges have points and the ends that are
joined coincide. -/
def Fits (p : Poly K) : Call K → Prop
  | .concatenate q atEnd rev => p.pts ≠ [] ∧ q.pts ≠ [] ∧
      (if atEnd then p.pts.getLast? = (if rev then q.pts.getLast? else q.pts.head?)
       else p.pts.head? = (if rev then q.pts.head? else q.pts.getLast?))
  | _ => True

end Verif.Polygon

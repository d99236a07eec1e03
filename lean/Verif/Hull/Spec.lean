import Mathlib.Algebra.Field.Basic
import Mathlib.Algebra.Order.Field.Basic

/-! # What a convex hull is -/

namespace Verif.Hull

variable {K : Type} [Field K] [LinearOrder K]

/-- twice the area of the triangle; positive iff `c` is to the left of the line from `a` to `b` (with y growing downwards) -/
def orient (a b c : K × K) : K := (b.2 - a.2) * (c.1 - a.1) - (b.1 - a.1) * (c.2 - a.2)

/-- `q` is in the triangle: a convex combination of the corners -/
def InTri (p a b q : K × K) : Prop :=
  ∃ α β : K, 0 ≤ α ∧ 0 ≤ β ∧ α + β ≤ 1 ∧ q.1 = p.1 + α * (a.1 - p.1) + β * (b.1 - p.1) ∧ q.2 = p.2 + α * (a.2 - p.2) + β * (b.2 - p.2)

/-- `hull` is the convex hull of the points, as a closed polygon. -/
structure IsHull (pts hull : List (K × K)) : Prop where
  /-- it has at least two different points -/
  two : 3 ≤ hull.length
  /-- closed -/
  closed : hull.head? = hull.getLast?
  /-- without repeated points otherwise -/
  nodup : hull.tail.Nodup
  /-- the corners are given points -/
  corner : ∀ v ∈ hull, v ∈ pts
  /-- it turns left at each corner -/
  turns : ∀ i a b c, hull[i]? = some a → hull[i + 1]? = some b → hull[i + 2]? = some c → 4 ≤ hull.length → 0 < orient a b c
  /-- also at the start -/
  turns0 : ∀ a b c, hull[hull.length - 2]? = some a → hull[0]? = some b → hull[1]? = some c → 4 ≤ hull.length → 0 < orient a b c
  /-- no point is to the right of a side -/
  left : ∀ i a b, hull[i]? = some a → hull[i + 1]? = some b → ∀ q ∈ pts, 0 ≤ orient a b q
  /-- every point is a convex combination of corners -/
  covers : ∀ q ∈ pts, ∃ p ∈ hull, ∃ a ∈ hull, ∃ b ∈ hull, InTri p a b q

/-- what `std::sort` promises if the comparison is a strict weak ordering of the elements -/
def Sorts {α : Type} (lt : α → α → Bool) (l r : List α) : Prop := r.Perm l ∧ r.Pairwise fun a b => lt b a = false

end Verif.Hull

import Verif.Scan.Norm
import Mathlib.Algebra.Order.Field.Basic

/-!
# What scanning a polygon means

A pixel `(x, y)` is the open unit square around its centre `(x, y)`.
-/

namespace Verif.Scan
open Verif Verif.GeoMap Verif.Polygon

variable {K : Type} [Field K] [LinearOrder K]

/-- The passage of the segment `p q` past the half line from `c` to the left: `1` upwards,
`-1` downwards, `0` if it does not cross.  (A point level with `c` counts as above.) -/
def turn (c p q : Pt K) : Int :=
  if p.1 + (q.1 - p.1) * (c.2 - p.2) / (q.2 - p.2) < c.1 then
    if p.2 < c.2 ∧ c.2 ≤ q.2 then 1 else if q.2 < c.2 ∧ c.2 ≤ p.2 then -1 else 0
  else 0

/-- The winding number of a polygon line around `c`: the signed number of its passages. -/
def winding (c : Pt K) (pts : List (Pt K)) : Int := pathSum (turn c) pts

/-- The centre of a pixel. -/
def centre (x y : Int) : Pt K := (x, y)

/-- `r` lies on the segment `p q`. -/
def OnSegment (p q r : Pt K) : Prop :=
  ∃ t : K, 0 ≤ t ∧ t ≤ 1 ∧ r = (p.1 + t * (q.1 - p.1), p.2 + t * (q.2 - p.2))

/-- `r` lies on the polygon line. -/
def OnLine (pts : List (Pt K)) (r : Pt K) : Prop :=
  r ∈ pts ∨ ∃ p q, [p, q] <:+: pts ∧ OnSegment p q r

/-- `r` lies in the open unit square of the pixel. -/
def InPixel (x y : Int) (r : Pt K) : Prop :=
  (x : K) - 1 / 2 < r.1 ∧ r.1 < x + 1 / 2 ∧ (y : K) - 1 / 2 < r.2 ∧ r.2 < y + 1 / 2

/-- The polygon line passes through the pixel. -/
def Passes (pts : List (Pt K)) (x y : Int) : Prop := ∃ r, OnLine pts r ∧ InPixel x y r

end Verif.Scan

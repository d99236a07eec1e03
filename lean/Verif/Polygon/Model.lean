import Verif.GeoMap.Model

/-!
# Model of `Polygon` and `BBoxPolygon` (src/geomap/polygon.hxx:234-709)

Simplifications:

* `double` is an ordered field `K`.  `(a - b).magnitude()` is a parameter `dist a b`.
* A cache (`length_` + `lengthValid_`, ...) is an `Option`: `none` = not valid.
* Iterators are indices; an index outside the documented range is `ub`.
* vigra's `Box` (not part of the repository) is modelled as `none` (empty) or its two corners, with
  `|=` the least common box.
* `const` member functions that fill a cache return the new state.
* Writing through `operator[]`, `begin()` etc. is not modelled (it bypasses the caches by design).
-/

namespace Verif.Polygon
open Verif Verif.GeoMap

variable {K : Type}

/-- sum of `g` over consecutive points -/
def pathSum {M : Type} [Zero M] [Add M] (g : Pt K → Pt K → M) : List (Pt K) → M
  | [] => 0
  | [_] => 0
  | p :: q :: l => g p q + pathSum g (q :: l)

/-- the summand of `partialArea` (polygon.hxx:737-738) -/
def cross [Field K] (p q : Pt K) : K := q.1 * p.2 - q.2 * p.1

/-- bounding box: `none` is the empty box -/
abbrev Box (K : Type) := Option (Pt K × Pt K)

/-- `box |= point` (vigra/box.hxx) -/
def boxPoint [LinearOrder K] (b : Box K) (p : Pt K) : Box K :=
  match b with
  | none => some (p, p)
  | some (lo, hi) => some ((min lo.1 p.1, min lo.2 p.2), (max hi.1 p.1, max hi.2 p.2))

/-- `box |= box` (vigra/box.hxx) -/
def boxUnion [LinearOrder K] (a b : Box K) : Box K :=
  match b with
  | none => a
  | some (lo, hi) => boxPoint (boxPoint a lo) hi

/-- polygon.hxx:234-514 and 564-709: points and caches -/
structure Poly (K : Type) where
  pts : List (Pt K)
  len : Option K
  area : Option K
  box : Option (Box K)

section
variable [Field K] [LinearOrder K] (dist : Pt K → Pt K → K)

/-- polygon.hxx:259-264, 594-596: default constructor (length and area are valid) -/
def Poly.default : Poly K := ⟨[], some 0, some 0, none⟩

/-- polygon.hxx:253-257, 266-277, 584-608: constructors from points -/
def Poly.ofPoints (pts : List (Pt K)) : Poly K := ⟨pts, none, none, none⟩

/-- polygon.hxx:285-295 `length()` -/
def Poly.length (p : Poly K) : K × Poly K :=
  match p.len with
  | some x => (x, p)
  | none => let x := pathSum dist p.pts; (x, { p with len := some x })

/-- polygon.hxx:297-305 `partialArea()` and 733-740 -/
def Poly.partialArea (p : Poly K) : K × Poly K :=
  match p.area with
  | some x => (x, p)
  | none => let x := pathSum cross p.pts / 2; (x, { p with area := some x })

/-- polygon.hxx:617-627 `boundingBox()` -/
def Poly.boundingBox (p : Poly K) : Box K × Poly K :=
  match p.box with
  | some x => (x, p)
  | none => let x := p.pts.foldl boxPoint none; (x, { p with box := some x })

/-- polygon.hxx:347-358 and 629-634 `push_back` -/
def Poly.pushBack (p : Poly K) (v : Pt K) : Poly K :=
  { pts := p.pts ++ [v]
    len := match p.pts.getLast? with
      | some b => p.len.map (· + dist b v)
      | none => p.len
    area := match p.pts.getLast? with
      | some b => p.area.map (· + (v.1 * b.2 - v.2 * b.1))
      | none => p.area
    box := p.box.map (boxPoint · v) }

/-- polygon.hxx:370-388: the gap between the two polygons: do the end points match, and what is added to
length and area otherwise -/
def extendGap (last first : Option (Pt K)) : Bool × K × K :=
  match last, first with
  | some b, some f => if f = b then (true, 0, 0) else (false, dist b f, f.1 * b.2 - f.2 * b.1)
  | _, _ => (false, 0, 0)

/-- polygon.hxx:362-394 and 636-641 `extend` (`other` is another object) -/
def Poly.extend (p other : Poly K) : Poly K :=
  if other.pts = [] then { p with box := p.box.map (boxUnion · other.boundingBox.1) }
  else
    let gap := extendGap dist p.pts.getLast? other.pts.head?
    { pts := p.pts ++ (if gap.1 then other.pts.drop 1 else other.pts)
      len := p.len.map (· + gap.2.1 + (other.length dist).1)
      area := p.area.map (· + gap.2.2 + other.partialArea.1)
      box := p.box.map (boxUnion · other.boundingBox.1) }

omit [Field K] [LinearOrder K] in
/-- change of length at one side: `nb` is the neighbour, `old` replaced by `new` -/
def sideChange {M : Type} [Zero M] [Sub M] (dist : Pt K → Pt K → M) (nb : Option (Pt K)) (old new : Pt K) : M :=
  match nb with
  | some a => dist a new - dist a old
  | none => 0

omit [Field K] in
/-- polygon.hxx:645-654: must the bounding box be recomputed? -/
def boxTouched (b : Box K) (old new : Pt K) : Bool :=
  match b with
  | none => false
  | some (lo, hi) => (new.1 < old.1 ∧ old.1 = hi.1) ∨ (old.1 < new.1 ∧ old.1 = lo.1) ∨
      (new.2 < old.2 ∧ old.2 = hi.2) ∨ (old.2 < new.2 ∧ old.2 = lo.2)

/-- polygon.hxx:396-413 and 643-658 `setPoint` -/
def Poly.setPoint (p : Poly K) (i : Nat) (x : Pt K) : Outcome (Poly K) :=
  match p.pts[i]? with
  | none => .ub
  | some old => .ok
    { pts := p.pts.set i x
      len := p.len.map (· + sideChange dist (if 0 < i then p.pts[i - 1]? else none) old x + sideChange dist p.pts[i + 1]? old x)
      area := none
      box := p.box.bind fun b => if boxTouched b old x then none else some b }

omit [Field K] in
/-- polygon.hxx:662-666: does the point touch the border of the box? -/
def onBorder (b : Box K) (p : Pt K) : Bool :=
  match b with
  | none => false
  | some (lo, hi) => p.1 = lo.1 ∨ p.1 = hi.1 ∨ p.2 = lo.2 ∨ p.2 = hi.2

omit [Field K] in
/-- polygon.hxx:415-419 and 660-669 `erase` -/
def Poly.erase (p : Poly K) (i : Nat) : Outcome (Poly K) :=
  match p.pts[i]? with
  | none => .ub
  | some old => .ok
    { pts := p.pts.eraseIdx i
      len := none
      area := none
      box := p.box.bind fun b => if onBorder b old then none else some b }

omit [Field K] [LinearOrder K] in
/-- polygon.hxx:423-434: change of length by an insertion between `a` and `b` -/
def insertChange {M : Type} [Zero M] [Add M] [Sub M] (dist : Pt K → Pt K → M) (a b : Option (Pt K)) (x : Pt K) : M :=
  match a, b with
  | some a, some b => dist a x + dist x b - dist a b
  | some a, none => dist a x
  | none, some b => dist x b
  | none, none => 0

/-- polygon.hxx:421-438 and 671-676 `insert` (one point) -/
def Poly.insert (p : Poly K) (i : Nat) (x : Pt K) : Outcome (Poly K) :=
  if i ≤ p.pts.length then .ok
    { pts := p.pts.insertIdx i x
      len := p.len.map (· + insertChange dist (if 0 < i then p.pts[i - 1]? else none) p.pts[i]? x)
      area := none
      box := p.box.map (boxPoint · x) }
  else .ub

omit [Field K] [LinearOrder K] in
/-- polygon.hxx:440-446 and 678-683 `insert` (range) -/
def Poly.insertRange (p : Poly K) (i : Nat) (l : List (Pt K)) : Outcome (Poly K) :=
  if i ≤ p.pts.length then .ok ⟨p.pts.take i ++ l ++ p.pts.drop i, none, none, none⟩ else .ub

omit [Field K] [LinearOrder K] in
/-- polygon.hxx:448-476 and 685-692 `split`: the kept part and the returned rest -/
def Poly.split (p : Poly K) (i : Nat) : Outcome (Poly K × Poly K) :=
  match p.pts[i]? with
  | none => .ub
  | some x =>
    if i = 0 then .ok (⟨[x], none, none, none⟩, { p with box := none })
    else .ok (⟨p.pts.take (i + 1), none, none, none⟩, ⟨p.pts.drop i, none, none, none⟩)

omit [LinearOrder K] in
/-- polygon.hxx:503-508 `reverse` -/
def Poly.reverse (p : Poly K) : Poly K := { p with pts := p.pts.reverse, area := p.area.map (- ·) }

omit [Field K] [LinearOrder K] in
/-- polygon.hxx:497-501 and 701-705 `swap` with a plain point array -/
def Poly.swapPoints (p : Poly K) (pts : List (Pt K)) : List (Pt K) × Poly K := (p.pts, ⟨pts, none, none, none⟩)

omit [Field K] [LinearOrder K] in
/-- polygon.hxx:146-149 `clear` (inherited: the caches are not touched) -/
def Poly.clear (p : Poly K) : Poly K := { p with pts := [] }

/-- cppmap.cxx:147-206 `Edge::concatenate` (scanlines left out) -/
def Poly.concatenate (p other : Poly K) (atEnd rev : Bool) : Poly K :=
  { pts := concatPts p.pts other.pts atEnd rev
    len := p.len.map (· + (other.length dist).1)
    area := p.area.map fun a => if rev then a - other.partialArea.1 else a + other.partialArea.1
    box := p.box.map (boxUnion · other.boundingBox.1) }

/-- polygon.hxx:308-311 `closed` -/
def Poly.closed (p : Poly K) : Outcome Bool :=
  match p.pts.head?, p.pts.getLast? with
  | some a, some b => .ok (b = a)
  | _, _ => .ub

/-- polygon.hxx:333-338: where the segment meets the horizontal line through `y` -/
def intersectX (p q : Pt K) (y : K) : K := p.1 + (q.1 - p.1) * (y - p.2) / (q.2 - p.2)

/-- polygon.hxx:329-345: number of crossings; `above` is the state for the first point -/
def crossings (x : Pt K) : Bool → List (Pt K) → Nat
  | above, p :: q :: l =>
    let now := decide (q.2 < x.2)
    if now ≠ above then (if intersectX p q x.2 < x.1 then 1 else 0) + crossings x now (q :: l)
    else crossings x above (q :: l)
  | _, _ => 0

/-- polygon.hxx:322-345 `Polygon::contains` -/
def Poly.contains (p : Poly K) (x : Pt K) : Outcome Bool := do
  let c ← p.closed
  if ¬ c then .precond
  else
    match p.pts with
    | [] => .ub
    | a :: l => .ok (crossings x (decide (a.2 < x.2)) (a :: l) % 2 ≠ 0)

/-- closed box membership (vigra/box.hxx, floating point) -/
def inBox (b : Box K) (x : Pt K) : Bool :=
  match b with
  | none => false
  | some (lo, hi) => lo.1 ≤ x.1 ∧ x.1 ≤ hi.1 ∧ lo.2 ≤ x.2 ∧ x.2 ≤ hi.2

/-- polygon.hxx:610-615 `BBoxPolygon::contains` -/
def Poly.bboxContains (p : Poly K) (x : Pt K) : Outcome Bool :=
  if ¬ inBox p.boundingBox.1 x then .ok false else p.contains x

end
end Verif.Polygon

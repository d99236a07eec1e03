import Verif.Polygon.Model
import Mathlib.Algebra.Order.Floor.Ring
import Mathlib.Data.List.Sort

/-!
# Scanlines

Models the scan conversion of polygons, `src/geomap/polygon.hxx:1705-2164`.

Simplifications: `double` is an ordered field `K` with floor and ceiling; `int` is
unbounded; lines are lists.  `std::sort` (1848) is insertion sort here; it is not
stable, so `Props.lean` shows that the choice among equal elements does not matter.
Row iterators of the destination image are column numbers; what is written is
the list of columns in the order of writing.
-/

namespace Verif.Scan
open Verif Verif.GeoMap Verif.Polygon

/-- `ScanlineSegment` (polygon.hxx:1705-1737): covers the pixels `b ≤ x < e`; `d` is the
direction, the number of half crossings upwards. -/
structure Seg where
  b : Int
  d : Int
  e : Int
  deriving DecidableEq, Repr

/-- `ScanlineSegment::joinSuccessor` (polygon.hxx:1723-1728). -/
def Seg.join (a o : Seg) : Seg := ⟨a.b, a.d + o.d, if o.e > a.e then o.e else a.e⟩

/-- `ScanlineSegmentCompare` (polygon.hxx:1739-1745), as `¬ (o < a)`. -/
def Seg.le (a o : Seg) : Prop := a.b ≤ o.b

instance : DecidableRel Seg.le := fun a o => inferInstanceAs (Decidable (a.b ≤ o.b))

/-- `Scanlines` (polygon.hxx:1747-1760). -/
structure Lines where
  start : Int
  rows : List (List Seg)
  deriving DecidableEq, Repr

/-- `Scanlines(startIndex, count)` (polygon.hxx:1755-1758). -/
def Lines.empty (start : Int) (count : Nat) : Lines := ⟨start, List.replicate count []⟩

/-- `endIndex` (polygon.hxx:1782-1785). -/
def Lines.stop (l : Lines) : Int := l.start + l.rows.length

/-- `operator[]` for a line between `startIndex()` and `endIndex()` (polygon.hxx:1787-1795);
no segments elsewhere. -/
def Lines.row (l : Lines) (y : Int) : List Seg :=
  if l.start ≤ y then (l.rows[(y - l.start).toNat]?).getD [] else []

/-- `append` (polygon.hxx:1762-1775): lines out of range are ignored. -/
def Lines.append (l : Lines) (y : Int) (s : Seg) : Lines :=
  if 0 ≤ y - l.start ∧ y - l.start < l.rows.length then
    { l with rows := l.rows.modify (y - l.start).toNat (· ++ [s]) }
  else l

/-- `reverse` (polygon.hxx:1809-1817). -/
def Lines.reverse (l : Lines) : Lines :=
  { l with rows := l.rows.map fun r => r.map fun s => { s with d := -s.d } }

/-- Adding the lines of the other object, `i` lines further (polygon.hxx:1842-1848). -/
def addRows : List (List Seg) → Nat → List (List Seg) → List (List Seg)
  | rows, 0, o => List.zipWith (· ++ ·) rows (o ++ List.replicate (rows.length - o.length) [])
  | [], _ + 1, _ => []
  | r :: rows, i + 1, o => r :: addRows rows i o

/-- `merge` (polygon.hxx:1824-1849). -/
def Lines.merge (l o : Lines) : Lines :=
  let l : Lines := if 0 < l.start - o.start then
    ⟨o.start, List.replicate (l.start - o.start).toNat [] ++ l.rows⟩ else l
  let l : Lines := if 0 < o.stop - l.stop then
    ⟨l.start, l.rows ++ List.replicate (o.stop - l.stop).toNat []⟩ else l
  ⟨l.start, addRows l.rows (o.start - l.start).toNat o.rows⟩

/-- The joining loop of `normalize` (polygon.hxx:1859-1868) on a sorted line, with the
current predecessor `a`. -/
def joinFrom (a : Seg) : List Seg → List Seg
  | [] => [a]
  | o :: l => if o.b ≤ a.e then joinFrom (a.join o) l else a :: joinFrom o l

/-- The joining loop (polygon.hxx:1859-1868). -/
def joinAll : List Seg → List Seg
  | [] => []
  | a :: l => joinFrom a l

/-- One line of `normalize` (polygon.hxx:1853-1869). -/
def normRow (r : List Seg) : List Seg := joinAll (r.insertionSort Seg.le)

/-- `normalize` (polygon.hxx:1851-1870). -/
def Lines.normalize (l : Lines) : Lines := { l with rows := l.rows.map normRow }

/-- `operator+=` (polygon.hxx:1802-1807). -/
def Lines.add (l o : Lines) : Lines := (l.merge o).normalize

section scan
variable {K : Type} [Field K] [LinearOrder K] [FloorRing K]

/-- The rounding constructor of `ScanlineSegment` (polygon.hxx:1715-1717). -/
def Seg.round (s : K) (d : Int) (e : K) : Seg := ⟨⌊s + 1 / 2⌋, d, ⌈e + 1 / 2⌉⟩

/-- The scanline of a point as Khalimsky coordinate (polygon.hxx:1975-1983, 1993-1995):
even inside line `k / 2`, odd on the boundary between two lines. -/
def kline (y : K) : Int :=
  let line := ⌊y + 1 / 2⌋
  if y + 1 / 2 = (line : K) then 2 * line - 1 else 2 * line

/-- The local variables of `scanPoly` (polygon.hxx:1963-1972). -/
structure St (K : Type) where
  s : K
  e : K
  step : Int
  line : Int
  k : Int
  p : Pt K
  out : Lines

/-- One iteration of the loop that leaves lines (polygon.hxx:2007-2036). -/
def leave (q : Pt K) (step : Int) (t : St K) : St K :=
  let ix := t.p.1 + (q.1 - t.p.1) * (((t.line : K) + 1 / 2 * step) - t.p.2) / (q.2 - t.p.2)
  if t.k % 2 = 0 then
    let s := if t.s > ix then ix else t.s
    let e := if t.e < ix then ix else t.e
    { t with
      s := s
      e := e
      out := t.out.append (t.k / 2) (Seg.round s (step + t.step) e)
      k := t.k + step
      step := step }
  else
    { t with
      s := ix
      e := ix
      line := t.line + step
      k := t.k + step
      step := step }

/-- The loop `for(; prevKLine != kLine; prevKLine += step)` (polygon.hxx:2007); the
number of iterations is the distance. -/
def leaves (q : Pt K) (step : Int) : Nat → St K → St K
  | 0, t => t
  | n + 1, t => leaves q step n (leave q step t)

/-- Changing the scanline (polygon.hxx:1997-2039). -/
def change (q : Pt K) (t : St K) : St K :=
  let k := kline q.2
  if k = t.k then t
  else
    let step : Int := if k > t.k then 1 else -1
    let t1 := if t.k % 2 = 0 then t else { t with line := (t.k - step) / 2 }
    { leaves q step (k - t.k).natAbs t1 with line := ⌊q.2 + 1 / 2⌋ }

/-- Including a point (polygon.hxx:2041-2050). -/
def addPoint (q : Pt K) (t : St K) : St K :=
  { t with
    s := if t.s > q.1 then q.1 else t.s
    e := if t.e < q.1 then q.1 else t.e
    p := q }

/-- The body of the loop over the points (polygon.hxx:1987-2051). -/
def scanStep (t : St K) (q : Pt K) : St K := addPoint q (change q t)

/-- The initialisation from the first point (polygon.hxx:1962-1984). -/
def scanInit (l : Lines) (p : Pt K) : St K :=
  ⟨p.1, p.1, 0, ⌊p.2 + 1 / 2⌋, kline p.2, p, l⟩

/-- The last segment (polygon.hxx:2053-2054). -/
def scanEnd (t : St K) : Lines :=
  if t.k % 2 = 0 then t.out.append (t.k / 2) (Seg.round t.s t.step t.e) else t.out

/-- `scanPoly` before normalisation (polygon.hxx:1956-2054). -/
def scanRaw (pts : List (Pt K)) (count : Nat) (start : Int) : Lines :=
  match pts with
  | [] => Lines.empty start count
  | p :: l => scanEnd (l.foldl scanStep (scanInit (Lines.empty start count) p))

/-- `scanPoly(points, scanLineCount, startIndex)` (polygon.hxx:1956-2060). -/
def scanPoly (pts : List (Pt K)) (count : Nat) (start : Int) : Lines :=
  match pts with
  | [] => Lines.empty start count
  | _ => (scanRaw pts count start).normalize

/-- `scanPoly(poly)` (polygon.hxx:1946-1953) for a bounding box with the given least and
greatest ordinate. -/
def scanPolyBox (pts : List (Pt K)) (lo hi : K) : Lines :=
  scanPoly pts (⌊hi + 1 / 2⌋ - ⌊lo + 1 / 2⌋ + 1).toNat ⌊lo + 1 / 2⌋

end scan

/-! ## Filling and drawing -/

/-- The columns `x, x + 1, ..., b - 1` (polygon.hxx:2097-2102). -/
def cols (x b : Int) : List Int := (List.range (b - x).toNat).map fun i : Nat => x + (i : Int)

/-- Clipping a segment to the columns of the image (polygon.hxx:2081-2094). -/
def clip (w : Int) (s : Seg) : Int × Int :=
  let p : Int × Int := if s.b < 0 then (0, if s.e < 0 then 0 else s.e) else (s.b, s.e)
  if p.2 > w then (if p.1 > w then w else p.1, w) else p

/-- The loop over the segments of a line (polygon.hxx:2076-2108): the columns written and
the final value of `inside`. -/
def fillRow (w : Int) : Int → Int → List Seg → List Int × Int
  | inside, _, [] => ([], inside)
  | inside, x, s :: l =>
    let c := clip w s
    let r := fillRow w (inside + s.d) c.2 l
    ((if inside > 0 then cols x c.1 else []) ++ r.1, r.2)

/-- The lines that are filled (polygon.hxx:2066-2070). -/
def clipRows (l : Lines) (h : Int) : List Int :=
  cols (max 0 l.start) (min h l.stop)

/-- `fillScannedPoly` (polygon.hxx:2057-2113): the pixels written, in order; their number is
the result.  Throws if a line does not end outside; the pixels are written nevertheless. -/
def fillScannedPoly (l : Lines) (w h : Int) : List (Int × Int) × Outcome Nat :=
  let rs := (clipRows l h).map fun y => (y, fillRow w 0 0 (l.row y))
  let px := rs.flatMap fun r => r.2.1.map fun x => (x, r.1)
  (px, if rs.all fun r => r.2.2 = 0 then .ok px.length else .precond)

/-- A line of `drawScannedPoly` (polygon.hxx:2141-2160). -/
def drawRow (w : Int) : List Seg → List Int
  | [] => []
  | s :: l =>
    cols (if s.b < 0 then 0 else s.b) (if s.e > w then w else s.e) ++ drawRow w l

/-- `drawScannedPoly` (polygon.hxx:2125-2164): the pixels written; their number is the
result. -/
def drawScannedPoly (l : Lines) (w h : Int) : List (Int × Int) :=
  (clipRows l h).flatMap fun y => (drawRow w (l.row y)).map fun x => (x, y)

end Verif.Scan

import Verif.FourEight.HistSpec
import Mathlib.Algebra.Ring.Basic
import Mathlib.Algebra.Field.Basic

/-!
# The statistics of faces

`CellStatistics` (cellimage/cellstatistics.hxx, cellstatistics.cxx) keeps, for every face of a pixel based map, how many pixels it has and
the sum and the sum of squares of the values of some image at these pixels.  It is told about every Euler operation before and after
it happens.  The values are elements of a commutative ring (the code: `float` or vectors of them; rounding is not modelled).
Mean edge gradients are in `EdgeStatModel.lean`, the protection of edges is in `MergedModel.lean`; node centers and the rethinning of edges (an
option of `SegmentationData` that is on by default: the models are those of `doEdgeRethinning = false`) are not modelled.
-/

namespace Verif.FourEight
open Verif Verif.CellImage Verif.Outcome

/-- statisticfunctor.hxx:106-108, the members of `StatisticFunctor` -/
@[ext] structure Stat (R : Type) where
  count : Int
  sum : R
  squareSum : R
  deriving DecidableEq

section
variable {R : Type} [CommRing R]

/-- statisticfunctor.hxx:59-64 `reset` -/
def Stat.zero : Stat R := ⟨0, 0, 0⟩

/-- statisticfunctor.hxx:66-71 `operator()(value)` -/
def Stat.add (s : Stat R) (v : R) : Stat R := ⟨s.count + 1, s.sum + v, s.squareSum + v * v⟩

/-- statisticfunctor.hxx:73-83 `operator()(other)` and `merge` -/
def Stat.merge (s t : Stat R) : Stat R := ⟨s.count + t.count, s.sum + t.sum, s.squareSum + t.squareSum⟩

/-- statisticfunctor.hxx:85-90 `remove` -/
def Stat.remove (s : Stat R) (v : R) : Stat R := ⟨s.count - 1, s.sum - v, s.squareSum - v * v⟩

/-- statisticfunctor.hxx:92-95 `average` (exact division) -/
def Stat.average {K : Type} [Field K] (s : Stat K) : K := s.sum / (s.count : K)

/-- statisticfunctor.hxx:97-100 `variance` (exact division) -/
def Stat.variance {K : Type} [Field K] (s : Stat K) : K := s.squareSum / (s.count : K) - s.average * s.average

/-- foureightsegmentation.hxx:962-964, `cell.bounds & Rect2D(cellImage.size() - Diff2D(4, 4))` with vigra's intersection of rectangles -/
def cropBox (m : Map) (r : Rect) : Rect :=
  if r.isEmpty then r
  else if (Rect.mk 0 0 (m.w - 4) (m.h - 4)).isEmpty then ⟨0, 0, m.w - 4, m.h - 4⟩
  else ⟨max r.x0 0, max r.y0 0, min r.x1 (m.w - 4), min r.y1 (m.h - 4)⟩

/-- foureightsegmentation.hxx:956-969 `cellScanIterator` with `cropToBaseImage`, run to its end: the positions in the base image of the
pixels it visits, in order.  Reading outside of the cell image is undefined. -/
def cellScan (m : Map) (r : Rect) (c : Pixel) : Outcome (List (Int × Int)) :=
  let b := cropBox m r
  if m.boxInside b then
    (Iter.scanAll (fun x y => decide (m.px (b.x0 + x) (b.y0 + y) = c)) (b.x1 - b.x0) (b.y1 - b.y0)).bind fun l =>
      .ok (l.map fun p => (b.x0 + p.2.1, b.y0 + p.2.2))
  else .ub

/-- vigra `inspectCell`: the functor sees the value at every position of the scan -/
def inspect (v : Int → Int → R) (l : List (Int × Int)) (s : Stat R) : Stat R := l.foldl (fun s p => s.add (v p.1 p.2)) s

/-- reading `faceStatistics_[i]` -/
def readStat (st : List (Stat R)) (i : Nat) : Outcome (Stat R) :=
  match st[i]? with
  | some s => .ok s
  | none => .ub

/-- writing `faceStatistics_[i]` -/
def writeStat (st : List (Stat R)) (i : Nat) (s : Stat R) : Outcome (List (Stat R)) :=
  if i < st.length then .ok (st.set i s) else .ub

/-- cellstatistics.cxx:84-90, the body of the loop over faces -/
def statLoop (m : Map) (v : Int → Int → R) : List Nat → List (Stat R) → Outcome (List (Stat R))
  | [], st => .ok st
  | l :: ls, st =>
    (m.face l).bind fun F => (cellScan m F.box (.region, l)).bind fun ps => (readStat st l).bind fun s =>
      (writeStat st l (inspect v ps s)).bind fun st => statLoop m v ls st

/-- the labels a `FaceIterator` visits, in order (foureightsegmentation.hxx `facesBegin`, an iterator that skips what is no cell any more) -/
def faceLabels (m : Map) : List Nat := (List.range m.faces.length).filter fun l => (m.faces[l]?.map (·.live)).getD false

/-- cellstatistics.cxx:82-90, the part of the constructor about faces: `maxFaceLabel()` is the length of the list, and the first face is
skipped -/
def initStats (m : Map) (v : Int → Int → R) : Outcome (List (Stat R)) :=
  statLoop m v (faceLabels m).tail (List.replicate (m.faces.length + 1) Stat.zero)

/-- cellstatistics.hxx:288-297 `preRemoveEdge` (`preRemoveBridge` is the same, 311-315): the temporary statistics -/
def preRemoveEdge (m : Map) (v : Int → Int → R) (st : List (Stat R)) (d : Dart) : Outcome (Stat R) :=
  (leftFace m d).bind fun l => (readStat st l).bind fun t => (edgeLabel m d).bind fun e => (m.edge e).bind fun E =>
    (cellScan m E.box (.line, e)).bind fun ps => .ok (inspect v ps t)

/-- cellstatistics.hxx:323-329 `preMergeFaces` -/
def preMergeFaces (m : Map) (v : Int → Int → R) (st : List (Stat R)) (d : Dart) : Outcome (Stat R) :=
  (preRemoveEdge m v st d).bind fun t => (rightFace m d).bind fun r => (readStat st r).bind fun s => .ok (t.merge s)

/-- One Euler operation with the notifications before and after it (the hooks of cellpyramid.hxx `CellPyramid::performOperation`;
cellstatistics.hxx:278-286 for isolated nodes, 299-302 and 331-334 after the removal of an edge; merging edges without
rethinning does not change the statistics of faces). -/
def runStat (m : Map) (v : Int → Int → R) (st : List (Stat R)) : Op → Outcome (Map × List (Stat R))
  | .removeIsolatedNode d => (removeIsolatedNode m d).bind fun p => .ok (p.1, st)
  | .mergeFaces d => (preMergeFaces m v st d).bind fun t => (mergeFaces m d).bind fun p => (writeStat st p.2 t).bind fun st => .ok (p.1, st)
  | .removeBridge d => (preRemoveEdge m v st d).bind fun t => (removeBridge m d).bind fun p => (writeStat st p.2 t).bind fun st => .ok (p.1, st)
  | .mergeEdges d => (mergeEdges m d).bind fun p => .ok (p.1, st)

end

end Verif.FourEight

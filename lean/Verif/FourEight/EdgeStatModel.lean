import Verif.FourEight.StatModel

/-!
# The statistics of edges

`CellStatistics` (cellimage/cellstatistics.hxx, cellstatistics.cxx) also keeps the mean of a gradient image along every edge.  Edges beside the
infinite face get a marker instead, the largest value of the type.  The code uses VIGRA's `FindAverage` (number and sum of the values seen);
here it is `Stat`, which has the sum of squares, too.  As in `StatModel.lean`, values are elements of a commutative ring, without
rounding; the rethinning of edges (an option that is on by default) is not modelled.
-/

namespace Verif.FourEight
open Verif Verif.CellImage Verif.Outcome

section
variable {R : Type} [CommRing R]

/-- cellstatistics.cxx:162-180, the body of the loop over edges; `mx` is the marker.  Simplified: both faces are always looked up. -/
def edgeStatLoop (m : Map) (v : Int → Int → R) (mx : R) : List Nat → List (Stat R) → Outcome (List (Stat R))
  | [], st => .ok st
  | l :: ls, st =>
    (m.edge l).bind fun E => (leftFace m E.start).bind fun a => (rightFace m E.start).bind fun b => (readStat st l).bind fun s =>
      (if a = 0 ∨ b = 0 then .ok (s.add mx) else (cellScan m E.box (.line, l)).bind fun ps => .ok (inspect v ps s)).bind fun t =>
      (writeStat st l t).bind fun st => edgeStatLoop m v mx ls st

/-- the labels an `EdgeIterator` visits, in order (foureightsegmentation.hxx `edgesBegin`, an iterator that skips what is no cell any more) -/
def edgeLabels (m : Map) : List Nat := (List.range m.edges.length).filter fun l => (m.edges[l]?.map (·.live)).getD false

/-- cellstatistics.cxx:160-180, the part of the constructor about edges -/
def initEdgeStats (m : Map) (v : Int → Int → R) (mx : R) : Outcome (List (Stat R)) :=
  edgeStatLoop m v mx (edgeLabels m) (List.replicate (m.edges.length + 1) Stat.zero)

/-- cellstatistics.hxx:336-366 `preMergeEdges`: the temporary statistics.  Simplified: both faces are always looked up. -/
def preMergeEdges (m : Map) (v : Int → Int → R) (mx : R) (st : List (Stat R)) (d : Dart) : Outcome (Stat R) :=
  (sigma m 1 d).bind fun d2 => (edgeLabel m d).bind fun e1 => (edgeLabel m d2).bind fun e2 =>
  (leftFace m d).bind fun a => (rightFace m d).bind fun b =>
    if a = 0 ∨ b = 0 then .ok (Stat.zero.add mx)
    else
      (readStat st e1).bind fun s1 => (readStat st e2).bind fun s2 => (nodeLabel m d2).bind fun n => (m.node n).bind fun N =>
        (cellScan m N.box (.vertex, n)).bind fun ps => .ok (inspect v ps (s1.merge s2))

/-- One Euler operation with the notifications: before and after edges are merged (464-466 `postMergeEdges`); other operations do not change
the statistics of edges. -/
def runEdgeStat (m : Map) (v : Int → Int → R) (mx : R) (st : List (Stat R)) : Op → Outcome (Map × List (Stat R))
  | .mergeEdges d =>
    (preMergeEdges m v mx st d).bind fun t => (mergeEdges m d).bind fun p => (writeStat st p.2 t).bind fun st => .ok (p.1, st)
  | op => (run m op).bind fun p => .ok (p.1, st)

end

end Verif.FourEight

import Verif.Eventually.Model
import Verif.GeoMap.Model

/-!
# Splitting parallel edges

Models `MergeDart` and `GeoMap::splitParallelEdges` (src/geomap/cppmap.cxx:693-938).

* The planned splits are those of `Verif/Eventually` (`splitInfo_`); `double` is `ℝ`.
* `std::sort` is a parameter for each of the two orders; what it guarantees is `SplitSorter`, `MergeSorter`.
* The preference of a new edge that is computed from the directions of the two darts at the split node (769-789) is the value
  of a parameter `cont` of the map and the new edge; it only selects the survivor of each group.
* `cell(label)->member` with a label without a cell is `ub` (NULL dereference).
* The bounding boxes and cached lengths of the edges, and `nodeMap_`, are left out.
-/

namespace Verif.Parallel
open Verif Verif.GeoMap Verif.Eventually

/-- cppmap.cxx:699-718 `MergeDart`; a default constructed one (label 0) is `none` in the arrays below. -/
structure MergeDart where
  label : Nat
  turnLater : Bool
  sigmaPos : Option Nat

section
variable {K : Type}

/-- cppmap.cxx:833-836, 850-852, 899-901: the dart at the split node that runs back along the parallel part -/
def MergeDart.dart (s : GMap K) (m : MergeDart) : Int := if m.turnLater then s.sigma m.label else m.label

/-- cppmap.cxx:863-875, 910-922: the edge of `d` is attached to the node `n` at the position `p` -/
def relocate (e : Edge K) (d : Int) (n : Nat) (p : Pt K) : Edge K :=
  if d < 0 then { e with endN := n, pts := e.pts.set (e.pts.length - 1) p }
  else { e with startN := n, pts := e.pts.set 0 p }

/-- cppmap.cxx:883, 928 `survivor.edge()->setFlag(mergeDart.edge()->flags())` (cppmap.hxx:674-680) -/
def propagateFlags (s : GMap K) (x a : Int) : Outcome (GMap K) :=
  match s.edge x.natAbs, s.edge a.natAbs with
  | some ex, some ea => .ok (s.setEdge x.natAbs (some { ex with flags := ex.flags ||| ea.flags }))
  | _, _ => .ub

variable [Field K] [LinearOrder K]

/-- cppmap.cxx:847-888 and 898-933 (the two loop bodies differ only in what happens to `sigmaNeighborLabel`): the split node of
`m` is merged into the node `n` with position `p`.  `x` is the survivor, `c` is `sigmaNeighborLabel`.  Result: the label of
`relocateDart` and the new map. -/
def mergeStep (h : Hooks K) (x : Int) (n : Nat) (p : Pt K) (c : Int) (m : MergeDart) (s : GMap K) : Outcome (Int × GMap K) :=
  let a := m.dart s
  (s.startLabel a).bind fun k =>
  (s.hasDegree k 2).bind fun two =>
  if two = false then .precond
  else
    let b := s.sigma a
    match s.edge b.natAbs with
    | none => .ub
    | some e =>
      if e.pts = [] then .ub
      else
        ((s.setEdge b.natAbs (some (relocate e b n p))).detachDart b).bind fun s2 =>
        (propagateFlags (s2.insertSigmaPredecessor c b) x a).bind fun s4 =>
        (s4.removeEdge h a).bind fun r =>
        (r.2.removeIsolatedNode h k).bind fun q => .ok (b, q.2)

/-- cppmap.cxx:842-891: from the survivor down to the beginning of the group (`l` is given in this order) -/
def mergeDown (h : Hooks K) (x : Int) (n : Nat) (p : Pt K) : List MergeDart → Int → GMap K → Outcome (GMap K)
  | [], _, s => .ok s
  | m :: l, c, s => (mergeStep h x n p c m s).bind fun r => mergeDown h x n p l r.1 r.2

/-- cppmap.cxx:893-934: from the survivor up to the end of the group -/
def mergeUp (h : Hooks K) (x : Int) (n : Nat) (p : Pt K) (c : Int) : List MergeDart → GMap K → Outcome (GMap K)
  | [], s => .ok s
  | m :: l, s => (mergeStep h x n p c m s).bind fun r => mergeUp h x n p c l r.2

/-- cppmap.cxx:822-831: index of the best continuation; `i` is the index of the first entry of the list -/
def bestLoop (pref : Nat → K) : List MergeDart → Nat → K → Nat → Nat
  | [], _, _, best => best
  | m :: l, i, v, best => if v < pref m.label then bestLoop pref l (i + 1) (pref m.label) i else bestLoop pref l (i + 1) v best

/-- cppmap.cxx:818-831 -/
def bestContinuation (pref : Nat → K) (g : List MergeDart) : Nat := bestLoop pref g 0 0 0

/-- cppmap.cxx:833-934: merge the nodes of one (sorted) group -/
def mergeGroup (h : Hooks K) (pref : Nat → K) (g : List MergeDart) (s : GMap K) : Outcome (GMap K) :=
  match g[bestContinuation pref g]? with
  | none => .ub
  | some m =>
    let x := m.dart s
    (s.startLabel x).bind fun n =>
    (s.derefNode n).bind fun nd =>
    let y := s.sigma x
    (mergeDown h x n nd.pos (g.take (bestContinuation pref g)).reverse y s).bind fun s1 =>
    mergeUp h x n nd.pos (s1.sigma y) (g.drop (bestContinuation pref g + 1)) s1

end

/-- cppmap.cxx:727-733: the position of the first planned split of every group -/
def groupStarts : List SplitPos → Nat → List Nat → List Nat
  | [], _, gp => gp
  | e :: l, i, gp => groupStarts l (i + 1) (if e.group = gp.length then gp ++ [i] else gp)

/-- What the splitting loop (757-798) works on: `groupPositions`, `mergeDarts`, the preferences and the map. -/
structure Work where
  gp : List Nat
  md : List (Option MergeDart)
  pref : Nat → ℝ
  map : GMap ℝ

/-- cppmap.cxx:760-797: one planned split; `given` is `hasPreferences` -/
noncomputable def splitStep (given : Bool) (cont : GMap ℝ → Nat → ℝ) (e : SplitPos) (w : Work) : Outcome Work :=
  match w.map.edge e.label.natAbs with
  | none => .ub
  | some _ =>
    (w.map.splitEdge e.label.natAbs e.at_.seg (some e.at_.pos)).bind fun r =>
    match w.gp[e.group]? with
    | none => .ub
    | some pos =>
      if pos < w.md.length then
        .ok { gp := w.gp.set e.group (pos + 1)
              md := w.md.set pos (some ⟨r.1, decide (0 < e.label), e.sigmaPos⟩)
              pref := Function.update w.pref r.1 (if given then w.pref e.label.natAbs else cont r.2 r.1)
              map := r.2 }
      else .ub

/-- cppmap.cxx:757-798 -/
noncomputable def splitLoop (given : Bool) (cont : GMap ℝ → Nat → ℝ) : List SplitPos → Work → Outcome Work
  | [], w => .ok w
  | e :: l, w => (splitStep given cont e w).bind fun w => splitLoop given cont l w

/-- the entries of a group; `none` if one of them has never been assigned (then the order of cppmap.cxx:713-717 is not a strict
weak order, or the loop 815-816 leaves the array) -/
def assigned : List (Option MergeDart) → Option (List MergeDart)
  | [] => some []
  | none :: _ => none
  | some m :: l => (assigned l).map (m :: ·)

/-- cppmap.cxx:806-935: all groups; `b` is `mergeDartsGroupEnd` of the group before -/
noncomputable def mergeLoop (srt : List MergeDart → List MergeDart) (h : Hooks ℝ) (pref : Nat → ℝ) (md : List (Option MergeDart)) :
    List Nat → Nat → GMap ℝ → Outcome (GMap ℝ)
  | [], _, s => .ok s
  | e :: gp, b, s =>
    match assigned ((md.drop b).take (e - b)) with
    | none => .ub
    | some g => (mergeGroup h pref (srt g) s).bind fun s => mergeLoop srt h pref md gp e s

/-- the check of the given edge preferences at the beginning of `splitParallelEdges()`: one per edge label -/
def badPreferences (given : Option (List ℝ)) (n : Nat) : Prop :=
  match given with
  | none => False
  | some p => p.length ≠ n

open Classical in
/-- cppmap.cxx:720-938 `splitParallelEdges()`; `plan` is `splitInfo_`, `given` is `edgePreferences_` -/
noncomputable def splitParallelEdges (srtS : List SplitPos → List SplitPos) (srtM : List MergeDart → List MergeDart)
    (cont : GMap ℝ → Nat → ℝ) (h : Hooks ℝ) (plan : Option Splits) (given : Option (List ℝ)) (s : GMap ℝ) : Outcome (GMap ℝ) :=
  match plan with
  | none => .precond
  | some pl =>
    if badPreferences given s.nEdges then .precond
    else
      (splitLoop given.isSome cont (srtS pl.list)
        ⟨groupStarts pl.list 0 [], List.replicate pl.list.length none, fun i => (given.getD []).getD i 0, s⟩).bind fun w =>
      if w.map.nEdges ≠ s.nEdges + pl.list.length then .precond
      else mergeLoop srtM h w.pref w.md w.gp 0 w.map

/-- What `std::sort` guarantees for the planned splits (cppmap.cxx:735, cppmap.hxx:1723-1726). -/
def SplitSorter (srt : List SplitPos → List SplitPos) : Prop :=
  ∀ l, (srt l).Perm l ∧ (srt l).Pairwise (fun x y => y.at_.arc ≤ x.at_.arc)

/-- What `std::sort` guarantees for the darts of a group (cppmap.cxx:713-717, 812), if their positions in the sigma order are known. -/
def MergeSorter (srt : List MergeDart → List MergeDart) : Prop :=
  ∀ l, (srt l).Perm l ∧ ((∀ m ∈ l, m.sigmaPos.isSome = true) →
    (srt l).Pairwise (fun x y => x.sigmaPos.getD 0 ≤ y.sigmaPos.getD 0))

end Verif.Parallel

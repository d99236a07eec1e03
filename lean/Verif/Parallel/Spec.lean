import Verif.Parallel.Step
import Verif.Eventually.Spec

/-!
# What merging the split nodes of a group means

Small specification used in the statements about `splitParallelEdges`.
-/

namespace Verif.Parallel
open Verif Verif.GeoMap Verif.Eventually Verif.DartPos

/-- An entry of a group: the record kept by the program, the dart `a` at the split node that runs back along the parallel part, the
dart `b` that leaves the parallel part there, and the split node `k`. -/
structure Entry where
  m : MergeDart
  a : Int
  b : Int
  k : Nat

/-- In the map `s`, `a` and `b` are the only darts at the split node, and the record refers to them. -/
structure Ready (s : GMap ℝ) (e : Entry) : Prop where
  two : Two s e.k e.a e.b
  label : (e.m.label : Int) = if e.m.turnLater then e.b else e.a

/-- the split nodes of two entries are different, and the parallel part of one is not an edge at the split node of the other -/
structure Apart (e e' : Entry) : Prop where
  k : e.k ≠ e'.k
  aa : e.a.natAbs ≠ e'.a.natAbs
  ab : e.a.natAbs ≠ e'.b.natAbs
  ba : e.b.natAbs ≠ e'.a.natAbs

/-- the points of an edge between its end points -/
def inner (e : Edge ℝ) : List (Pt ℝ) := e.pts.tail.dropLast

/-- The entries `r` have been merged into the node `n`; `x` is the dart of the surviving parallel part. -/
structure Done (s t : GMap ℝ) (x : Int) (n : Nat) (r : List Entry) : Prop where
  /-- the parallel parts are gone, the darts that leave them start at `n`, all other darts start where they did -/
  start : ∀ d, t.startN? d = if ∃ e ∈ r, d = e.a ∨ d = -e.a then none else if ∃ e ∈ r, d = e.b then some n else s.startN? d
  /-- the split nodes are gone -/
  gone : ∀ e ∈ r, t.node e.k = none
  /-- all other nodes are where they were -/
  pos : ∀ j, (∀ e ∈ r, j ≠ e.k) → (t.node j).map (·.pos) = (s.node j).map (·.pos)
  /-- the edges keep their inner points -/
  inner : ∀ l, (∀ e ∈ r, l ≠ e.a.natAbs) → (t.edge l).map inner = (s.edge l).map inner
  /-- the surviving parallel part gets the flags of the others -/
  flagsX : (∀ e ∈ r, x.natAbs ≠ e.a.natAbs) → ∀ ex, s.edge x.natAbs = some ex → ∃ fx, (t.edge x.natAbs).map (·.flags) = some fx ∧
    ∀ i, fx.testBit i = true ↔ ex.flags.testBit i = true ∨ ∃ e ∈ r, ∃ ea, s.edge e.a.natAbs = some ea ∧ ea.flags.testBit i = true
  flags : ∀ l, l ≠ x.natAbs → (∀ e ∈ r, l ≠ e.a.natAbs) → (t.edge l).map (·.flags) = (s.edge l).map (·.flags)
  nNodes : t.nNodes = s.nNodes
  nEdges : t.nEdges = s.nEdges
  nFaces : t.nFaces = s.nFaces
  nodeCount : t.nodeCount + r.length = s.nodeCount
  edgeCount : t.edgeCount + r.length = s.edgeCount

/-- The map is consistent, without faces; edges have at least two points and end at their nodes. -/
structure Sound (s : GMap ℝ) : Prop where
  ok : MapOK s
  raw : ¬ s.initialized
  geom : GeomOK s
  long : EdgesLong s

/-! ## plans -/

/-- On their common edge, the planned split `v` lies before `u`.  The part of the edge between them is needed by the merge at `u` if it
is a parallel part there (`u` has been found walking from the start of the edge), and by the merge at `v` if `v` has been found
walking from the end; the other group has to be merged before. -/
structure Below (v u : SplitPos) : Prop where
  arc : v.at_.arc < u.at_.arc
  seg : v.at_.seg ≤ u.at_.seg
  fromStart : 0 < u.label → v.group < u.group
  fromEnd : v.label < 0 → u.group < v.group

/-- A plan that fits the map: the groups `gs` are numbered in the order of the list, every split is on a segment of an edge, and the
splits of one edge are nested. -/
structure PlanOK (s : GMap ℝ) (list : List SplitPos) (gs : List (List SplitPos)) : Prop where
  eq : list = gs.flatten
  groups : ∀ (i : Nat) (g : List SplitPos), gs[i]? = some g → g ≠ [] ∧ ∀ v ∈ g, v.group = i
  inside : ∀ v ∈ list, ∃ e, s.edge v.label.natAbs = some e ∧ v.at_.seg + 1 < e.pts.length
  nested : list.Pairwise fun u v => u.label.natAbs = v.label.natAbs → Below u v ∨ Below v u

/-- A group of planned splits with the number `k`: at least two darts that start at the node `n` and follow each other around it in
the order of the stored positions; each split is on a segment of its edge. -/
structure PlannedGroup (t : GMap ℝ) (n k : Nat) (g : List SplitPos) : Prop where
  two : 2 ≤ g.length
  group : ∀ v ∈ g, v.group = k
  inside : ∀ v ∈ g, ∃ e, t.edge v.label.natAbs = some e ∧ v.at_.seg + 1 < e.pts.length
  order : ∃ ord : List Int, ord.Nodup ∧ (∀ d ∈ ord, t.startN? d = some n) ∧ (ord.IsChain fun d d' => t.sigma d = d') ∧
    ord.Perm (g.map (·.label)) ∧ ∀ v ∈ g, ∃ p, v.sigmaPos = some p ∧ ord[p]? = some v.label

/-- How far the planned split is from the start of its dart; `P d` are the points of the dart `d`. -/
noncomputable def walk (P : Int → List (Pt ℝ)) (v : SplitPos) : ℝ := if v.label < 0 then pathLen (P v.label) - v.at_.arc else v.at_.arc

/-- the number of the segment, counted from the start of the dart -/
def walkSeg (P : Int → List (Pt ℝ)) (v : SplitPos) : Nat := if v.label < 0 then (P v.label).length - 2 - v.at_.seg else v.at_.seg

/-- The planned position is the point of the dart at that distance from its start. -/
structure Walked (P : Int → List (Pt ℝ)) (v : SplitPos) : Prop where
  nonneg : 0 ≤ walk P v
  pos : v.at_.pos = along (P v.label) (walk P v)
  seg : walk P v < pathLen (P v.label) → reach (P v.label) (walkSeg P v) ≤ walk P v ∧ walk P v ≤ reach (P v.label) (walkSeg P v + 1)

/-- No split is planned at the end of its dart, and splits that were planned from both ends of an edge do not cross. -/
structure Uncrossed (P : Int → List (Pt ℝ)) (list : List SplitPos) : Prop where
  interior : ∀ v ∈ list, walk P v < pathLen (P v.label)
  apart : ∀ u ∈ list, ∀ v ∈ list, 0 < u.label → v.label = -u.label → u.at_.arc < v.at_.arc

/-- One after the other, the groups have been merged; each group is given in the order of the darts, with the index of the
surviving entry. -/
def Chain : GMap ℝ → List (List Entry × Nat) → GMap ℝ → Prop
  | s, [], t => t = s
  | s, (G, i) :: l, t => ∃ u e0, G[i]? = some e0 ∧ Sound u ∧ SigmaList u e0.k (e0.a :: G.map Entry.b) ∧
      Done s u e0.a e0.k (G.eraseIdx i) ∧ Chain u l t

/-- A planned split `e` that has been carried out: `r` is the label of the new edge, `n` the new node, `q` the edge that ends there. -/
structure Row where
  e : SplitPos
  q : Nat
  r : Nat
  n : Nat

/-- The entry of the split: if it has been found walking from the start of the edge, the part before it is parallel, else the new
edge. -/
def Row.entry (w : Row) : Entry where
  m := ⟨w.r, decide (0 < w.e.label), w.e.sigmaPos⟩
  a := if 0 < w.e.label then -(w.q : Int) else w.r
  b := if 0 < w.e.label then (w.r : Int) else -(w.q : Int)
  k := w.n

/-- the splits of the group `i` -/
def grp (T : List Row) (i : Nat) : List Row := T.filter fun w => decide (w.e.group = i)

/-- All planned splits have been carried out: each made a node of degree two at its position. -/
structure AllSplit (s s1 : GMap ℝ) (plan : List SplitPos) (T : List Row) : Prop where
  sound : Sound s1
  all : (T.map Row.e).Perm plan
  two : ∀ w ∈ T, Two s1 w.n w.r (-(w.q : Int))
  pos : ∀ w ∈ T, (s1.node w.n).map (·.pos) = some w.e.at_.pos
  new : ∀ w ∈ T, s.nNodes ≤ w.n ∧ s.nEdges ≤ w.r
  old : ∀ n, n < s.nNodes → (s1.node n).map (·.pos) = (s.node n).map (·.pos)
  distinct : T.Pairwise fun u v => u.n ≠ v.n ∧ u.r ≠ v.r
  nodeCount : s1.nodeCount = s.nodeCount + plan.length
  edgeCount : s1.edgeCount = s.edgeCount + plan.length

/-- What `splitParallelEdges` makes of the map: every group leaves one node, at the position of one of its splits, and this is the split
of an edge with the largest preference, if preferences are given. -/
structure Parallelized (s t : GMap ℝ) (gs : List (List SplitPos)) (given : Option (List ℝ)) : Prop where
  sound : Sound t
  old : ∀ n, n < s.nNodes → (t.node n).map (·.pos) = (s.node n).map (·.pos)
  groups : ∃ node : Nat → Nat, (∀ i j, i < gs.length → j < gs.length → node i = node j → i = j) ∧
    (∀ (i : Nat) (g : List SplitPos), gs[i]? = some g → s.nNodes ≤ node i ∧ ∃ v ∈ g, (t.node (node i)).map (·.pos) = some v.at_.pos ∧
      ∀ p, given = some p → (∃ u ∈ g, 0 < p.getD u.label.natAbs 0) → ∀ u ∈ g, p.getD u.label.natAbs 0 ≤ p.getD v.label.natAbs 0) ∧
    ∀ n, (t.node n).isSome = true → n < s.nNodes ∨ ∃ i, i < gs.length ∧ n = node i
  nodeCount : t.nodeCount = s.nodeCount + gs.length
  edgeCount : t.edgeCount = s.edgeCount + gs.length

end Verif.Parallel

import Verif.GeoMap.Model
import Mathlib.Algebra.Order.Group.Unbundled.Abs
import Mathlib.Data.List.Sort

/-!
# Model of the construction of a `GeoMap` (src/geomap/cppmap.cxx)

`addNode`, `addEdge`, `sortEdgesDirectly`, `initContours`, `embedFaces`, `initializeMap`.

Simplifications: as in `Verif/GeoMap/Model.lean`.  The label image branch of `embedFaces` is left
out, and the geometric search for the face that surrounds a hole contour is a parameter (`pick`).
-/

namespace Verif.GeoMap
open Verif

variable {K : Type}

namespace GMap

/-- cppmap.cxx:362-369 `addNode(position, label)`: unused labels below `label` are skipped; a
`label` below the current size is ignored (`label = 0`: cppmap.cxx:355-360). -/
def addNodeAt (s : GMap K) (p : Pt K) (label : Nat) : Nat × GMap K :=
  { s with nNodes := max s.nNodes label }.addNode p

/-- cppmap.hxx:1408-1428: the argument of a `SigmaAnchor`: a node or a dart -/
inductive SigmaPos where
  | node (n : Nat)
  | dart (d : Int)

/-- cppmap.hxx:1408-1459 `SigmaAnchor`: `isSingular_`, `dartLabel_`, `nodeLabel_` -/
structure SigmaAnchor where
  singular : Bool
  dart : Int
  node : Nat
  deriving DecidableEq

/-- cppmap.hxx:1411-1428: the two constructors of `SigmaAnchor` -/
def sigmaAnchor (s : GMap K) : SigmaPos → Outcome SigmaAnchor
  | .node n => do
    let nd ← s.derefNode n
    if nd.anchor = 0 then .ok ⟨true, 0, n⟩
    else if s.edgesSorted then .precond
    else .ok ⟨false, nd.anchor, n⟩
  | .dart d => do
    let n ← s.startLabel d
    .ok ⟨false, d, n⟩

/-- cppmap.hxx:1445-1453 `SigmaAnchor::operator==` -/
def SigmaAnchor.same (a b : SigmaAnchor) : Bool :=
  if a.singular ≠ b.singular then false
  else if a.singular then a.node = b.node else a.dart = b.dart

/-- cppmap.cxx:383-389 and 395-401: insert dart `x` at position `a`, start node `n` -/
def attach (s : GMap K) (a : SigmaAnchor) (n : Nat) (x : Int) : Outcome (GMap K) :=
  if a.singular then do
    let nd ← s.derefNode n
    .ok ((s.insertSigmaPredecessor nd.anchor x).setNode n (some { nd with anchor := x }))
  else .ok (s.insertSigmaPredecessor a.dart x)

/-- cppmap.cxx:391-401: insertion of the second dart -/
def attachEnd [Field K] [LinearOrder K] (s : GMap K) (A B : SigmaAnchor) (pts : List (Pt K)) (l : Int) : Outcome (GMap K) :=
  if B.same A ∧ partialArea pts < 0 then .ok (s.insertSigmaPredecessor l (-l))
  else s.attach B B.node (-l)

/-- cppmap.cxx:371-405 `addEdge`.  Result: the label of the new edge. -/
def addEdge [Field K] [LinearOrder K] (s : GMap K) (start fin : SigmaPos) (pts : List (Pt K)) (label : Nat) : Outcome (Nat × GMap K) :=
  if s.initialized then .precond
  else do
    let A ← s.sigmaAnchor start
    let B ← s.sigmaAnchor fin
    let s := { s with nEdges := max s.nEdges label }
    let l := s.nEdges
    let s := (s.newEdge { startN := A.node, endN := B.node, leftF := none, rightF := none, pts := pts, flags := 0 }).2
    let s ← s.attach A A.node l
    let s ← s.attachEnd A B pts l
    .ok (l, s)

/-! ## sorting the edges around the nodes -/

end GMap

/-- cppmap.cxx:54-67 `angleTheta` -/
def angleTheta [Field K] [LinearOrder K] (dy dx : K) : K :=
  let denom := |dx| + |dy|
  if denom = 0 then 0
  else
    let result := dy / denom
    if dx < 0 then (if dy < 0 then 2 - result - 4 else 2 - result) else result

/-- cppmap.hxx:914-922 `Dart::operator[]` (`none`: out of range), on the list of points of the edge -/
def Edge.dartPts (e : Edge K) (d : Int) : List (Pt K) := if 0 < d then e.pts else e.pts.reverse

/-- cppmap.cxx:446-450: direction of a dart; a dart with one point violates the precondition -/
def Edge.theta [Field K] [LinearOrder K] (e : Edge K) (d : Int) : Outcome K :=
  match e.dartPts d with
  | p :: q :: _ => .ok (angleTheta (-q.2 + p.2) (q.1 - p.1))
  | _ => .precond

/-- comparison of `std::pair<double, int>` (cppmap.cxx:454) -/
def angleLE [LinearOrder K] (a b : K × Int) : Bool := a.1 < b.1 ∨ (a.1 = b.1 ∧ a.2 ≤ b.2)

/-- cppmap.cxx:459: two neighbours with equal angles? -/
def hasEqualAngles [DecidableEq K] : List (K × Int) → Bool
  | [] => false
  | [_] => false
  | a :: b :: l => a.1 = b.1 ∨ hasEqualAngles (b :: l)

namespace GMap
variable [Field K] [LinearOrder K]

/-- cppmap.cxx:442-452: angles of the darts around a node (do-while loop) -/
def dartAngles (s : GMap K) (anchor : Int) : Nat → Int → List (K × Int) → Outcome (List (K × Int))
  | 0, _, _ => .hang
  | fuel + 1, d, acc => do
    let e ← s.guaranteedEdge d
    let t ← e.theta d
    let acc := acc ++ [(t, d)]
    let d' := s.sigma d
    if d' = anchor then .ok acc else dartAngles s anchor fuel d' acc

omit [Field K] [LinearOrder K] in
/-- cppmap.cxx:456-474: link the darts in the order of the list; `pred` precedes the list -/
def linkCycle (first : Int) : Int → List Int → GMap K → GMap K
  | pred, [], s => (s.setSigma pred first).setSigmaInv first pred
  | pred, x :: xs, s => linkCycle first x xs ((s.setSigma pred x).setSigmaInv x pred)

/-- cppmap.cxx:436-475: one node -/
def sortNode (s : GMap K) (n : Nat) : Outcome (GMap K) :=
  match s.node n with
  | none => .ok s
  | some nd =>
    if nd.anchor = 0 then .ok s
    else do
      let as ← s.dartAngles nd.anchor s.fuel nd.anchor []
      let sorted := as.insertionSort (fun x y => angleLE x y = true)
      if hasEqualAngles sorted then .precond
      else
        match sorted.map (·.2) with
        | [] => .ub
        | d :: ds => .ok (linkCycle d d ds s)

/-- cppmap.cxx:435-476: all nodes -/
def sortNodes : List Nat → GMap K → Outcome (GMap K)
  | [], s => .ok s
  | n :: ns, s => do
    let s ← s.sortNode n
    sortNodes ns s

/-- cppmap.cxx:428-478 `sortEdgesDirectly` -/
def sortEdgesDirectly (s : GMap K) : Outcome (GMap K) :=
  if s.initialized then .precond
  else do
    let s ← sortNodes (List.range s.nNodes) s
    .ok { s with edgesSorted := true }

/-! ## faces -/

omit [Field K] [LinearOrder K] in
/-- the loops cppmap.hxx:1105-1112 (`Face` constructor) and cppmap.cxx:2246-2248
(`embedContour`): walk along the contour and label darts until `stop` holds for the label found -/
def markLoop (lbl : Nat) (stop : Option Nat → Bool) : Nat → GMap K → Int → Outcome (GMap K)
  | 0, _, _ => .hang
  | fuel + 1, s, d => do
    let l ← s.leftLabel d
    if stop l then .ok s
    else do
      let s ← s.setLeft d lbl
      markLoop lbl stop fuel s (s.phi d)

omit [Field K] [LinearOrder K] in
/-- cppmap.hxx:1092-1114 `Face` constructor; the anchor is ignored for the first face -/
def newFace (s : GMap K) (anchor : Int) : Outcome (GMap K) :=
  let lbl := s.nFaces
  let s := { s with nFaces := s.nFaces + 1
                    face := Function.update s.face lbl (some ⟨if lbl = 0 then [] else [anchor], none, 0⟩)
                    faceCount := s.faceCount + 1 }
  if lbl = 0 then .ok s else markLoop lbl (fun l => l.isSome) s.fuel s anchor

omit [Field K] [LinearOrder K] in
/-- cppmap.cxx:1037-1038: the left side of edge `l` -/
def initDart (s : GMap K) (d : Int) : Outcome (GMap K) :=
  match s.edge d.natAbs with
  | none => .ok s
  | some e => if e.leftOf d = none then s.newFace d else .ok s

omit [Field K] [LinearOrder K] in
/-- cppmap.cxx:1035-1041: the loop over all edges -/
def initContoursLoop : List Nat → GMap K → Outcome (GMap K)
  | [], s => .ok s
  | l :: ls, s => do
    let s ← s.initDart l
    let s ← s.initDart (-(l : Int))
    initContoursLoop ls s

omit [Field K] [LinearOrder K] in
/-- cppmap.cxx:1028-1042 `initContours` -/
def initContours (s : GMap K) : Outcome (GMap K) := do
  let s ← s.newFace 0
  initContoursLoop (List.range s.nEdges) s

/-- cppmap.cxx:1044-1055 `AbsAreaCompare` on the areas; `1/100` is `1e-2` -/
def absAreaLess (a1 a2 : K) : Bool :=
  let absdiff := |a1| - |a2|
  if |absdiff| < 1 / 100 ∧ (decide (a1 < 0) ≠ decide (a2 < 0)) then a1 < 0 else 0 < absdiff

/-- the areas asked for while sorting and in `contour.area() <= 0` (cppmap.cxx:1049, 1088): label,
cell and area of all contours -/
def contourList (s : GMap K) : List Nat → Outcome (List (Nat × Face K × K))
  | [] => .ok []
  | f :: fs => do
    let F ← s.derefFace (some f)
    let (a, s) ← s.faceArea (some f)
    let rest ← contourList s fs
    .ok ((f, { F with area := some a }, a) :: rest)

/-- cppmap.cxx:2242-2256 `embedContour` into face `p` (`vigra_postcondition` not modelled: the loop
can only end at the anchor) -/
def embedContour (s : GMap K) (p : Nat) (anchor : Int) : Outcome (GMap K) := do
  let P ← s.derefFace (some p)
  let s := s.setFace p (some { P with anchors := P.anchors ++ [anchor] })
  let s ← markLoop p (fun l => l = some p) s.fuel s anchor
  match P.area with
  | none => .ok s
  | some a => do
    let x ← s.contourArea anchor
    .ok (s.setFace p (some { P with anchors := P.anchors ++ [anchor], area := some (a + x) }))

omit [Field K] [LinearOrder K] in
/-- cppmap.cxx:1113-1160: the face a hole contour is put into.  `pick` stands for the geometric
search; the code only ever finds existing faces and falls back to `face(0)`. -/
def parentOf (s : GMap K) (pick : GMap K → Int → Option Nat) (anchor : Int) : Nat :=
  match pick s anchor with
  | none => 0
  | some f => if (s.face f).isSome then f else 0

/-- cppmap.cxx:1082-1169: the loop over the sorted contours -/
def embedLoop (pick : GMap K → Int → Option Nat) : List (Nat × Face K × K) → GMap K → Outcome (GMap K)
  | [], s => .ok s
  | (f, F, a) :: rest, s => do
    match F.anchors with
    | [] => .ub
    | anchor :: _ =>
      if 0 < a then embedLoop pick rest (s.setFace f (some F))
      else do
        let s ← s.embedContour (s.parentOf pick anchor) anchor
        embedLoop pick rest (s.uninitFace f)

omit [Field K] [LinearOrder K] in
/-- cppmap.cxx:1080 `std::fill`: all faces but the infinite one leave the table -/
def clearFaces (s : GMap K) : GMap K := { s with face := fun f => if f = 0 then s.face 0 else none }

/-- cppmap.cxx:1057-1197 `embedFaces(false)` -/
def embedFaces (s : GMap K) (pick : GMap K → Int → Option Nat) : Outcome (GMap K) := do
  let cs ← s.contourList (List.range' 1 (s.nFaces - 1))
  let sorted := cs.insertionSort (fun x y => absAreaLess y.2.2 x.2.2 = false)
  embedLoop pick sorted s.clearFaces

/-- cppmap.cxx:965-971, first part of `initializeMap` -/
def ensureSorted (s : GMap K) : Outcome (GMap K) := if s.edgesSorted then .ok s else s.sortEdgesDirectly

/-- cppmap.cxx:965-975 `initializeMap(false)` -/
def initializeMap (s : GMap K) (pick : GMap K → Int → Option Nat) : Outcome (GMap K) :=
  if s.initialized then .precond
  else do
    let s ← s.ensureSorted
    let s ← s.initContours
    s.embedFaces pick

end GMap
end Verif.GeoMap

import Verif.Utils.Model

/-!
# The operations with the calls of the connected slots

The models of `GeoMap/Model.lean` abstract the signals into `Hooks` (did all slots agree?).  Here the same
functions are modelled once more, with the list of slot calls they make; `Hooks/Props.lean` shows that they are
the same functions otherwise.  Not modelled: `associatePixelsHook` (only used with a label image), slots that
modify the map, that throw or that change the connections.
-/

namespace Verif.GeoMap
open Verif

/-- the signals (cppmap.hxx:387-431) -/
inductive Sig where
  | removeNode | preMergeEdges | postMergeEdges | preSplitEdge | postSplitEdge
  | preRemoveBridge | postRemoveBridge | preMergeFaces | postMergeFaces
  deriving DecidableEq, Repr

/-- a call of slot number `slot` of signal `sig` for the node, edge or face label or dart `cell` -/
structure Ev where
  sig : Sig
  slot : Nat
  cell : Int
  deriving DecidableEq, Repr

variable {K : Type}

/-- All slots connected to a map; of the signals without result (cppmap.hxx:389-400) only the number of
slots matters. -/
structure Listeners (K : Type) where
  slots : Slots K
  postMergeEdges : Nat
  preSplitEdge : Nat
  postSplitEdge : Nat
  postRemoveBridge : Nat
  postMergeFaces : Nat

/-- cppmap.hxx:81-93 `interruptable_accumulator`; `i` is the number of the next slot.  Dereferencing the
iterator calls the slot. -/
def ask {α : Type} (sig : Sig) (cell : Int) : Nat → List (α → Bool) → α → Bool × List Ev
  | _, [], _ => (true, [])
  | i, f :: fs, a => if f a then ((ask sig cell (i + 1) fs a).1, ⟨sig, i, cell⟩ :: (ask sig cell (i + 1) fs a).2) else (false, [⟨sig, i, cell⟩])

/-- a signal without result calls all its `n` slots in order -/
def notify (sig : Sig) (cell : Int) (n : Nat) : List Ev := (List.range n).map fun i => ⟨sig, i, cell⟩

/-- `removeNodeHook(node)` -/
def Listeners.askNode (c : Listeners K) (s : GMap K) (n : Nat) : Bool × List Ev :=
  ask .removeNode n 0 (c.slots.removeNode.map fun f (x : GMap K × Nat) => f x.1 x.2) (s, n)
/-- `preMergeEdgesHook(dart)` -/
def Listeners.askMergeEdges (c : Listeners K) (s : GMap K) (d : Int) : Bool × List Ev :=
  ask .preMergeEdges d 0 (c.slots.preMergeEdges.map fun f (x : GMap K × Int) => f x.1 x.2) (s, d)
/-- `preRemoveBridgeHook(dart)` -/
def Listeners.askRemoveBridge (c : Listeners K) (s : GMap K) (d : Int) : Bool × List Ev :=
  ask .preRemoveBridge d 0 (c.slots.preRemoveBridge.map fun f (x : GMap K × Int) => f x.1 x.2) (s, d)
/-- `preMergeFacesHook(dart)` -/
def Listeners.askMergeFaces (c : Listeners K) (s : GMap K) (d : Int) : Bool × List Ev :=
  ask .preMergeFaces d 0 (c.slots.preMergeFaces.map fun f (x : GMap K × Int) => f x.1 x.2) (s, d)

namespace GMap

/-- cppmap.cxx:1664-1671 `removeIsolatedNode`; hook call in line 1666 -/
def removeIsolatedNodeL (c : Listeners K) (s : GMap K) (n : Nat) : Outcome (Bool × GMap K × List Ev) := do
  let _ ← s.derefNode n
  let q := c.askNode s n
  if q.1 then .ok (true, s.uninitNode n, q.2) else .ok (false, s, q.2)

/-- cppmap.cxx:1819-1868: the part of `mergeEdges` after the hooks agreed -/
def mergeEdgesApply (s : GMap K) (d1 d2 : Int) (e2 : Edge K) (m : Nat) : Outcome (Option Nat × GMap K) := do
  let e1 ← s.guaranteedEdge d1
  let n2 := e2.endOf d2
  if e2.pts = [] then .ub
  else do
    let s := s.setEdge d1.natAbs (some (mergedGeometry e1 e2 m n2))
    let s := s.replaceInOrbit d1 d2
    let nd ← s.derefNode n2
    let s := s.setNode n2 (some { nd with anchor := d1 })
    let s := s.uninitNode m
    let s := s.uninitEdge d2.natAbs
    .ok (some d1.natAbs, s)

/-- cppmap.cxx:1814-1871: the hooks of `mergeEdges` -/
def mergeEdgesHooked (c : Listeners K) (s : GMap K) (d1 d2 : Int) (e2 : Edge K) (m : Nat) : Outcome (Option Nat × GMap K × List Ev) :=
  let q1 := c.askMergeEdges s d1
  if ¬ q1.1 then .ok (none, s, q1.2)
  else
    let q2 := c.askNode s m
    if ¬ q2.1 then .ok (none, s, q1.2 ++ q2.2)
    else do
      let (r, s) ← s.mergeEdgesApply d1 d2 e2 m
      .ok (r, s, q1.2 ++ q2.2 ++ notify .postMergeEdges d1.natAbs c.postMergeEdges)

/-- cppmap.cxx:1769-1871 `mergeEdges`; hook calls in lines 1814, 1816, 1868 -/
def mergeEdgesL (c : Listeners K) (s : GMap K) (dart : Int) : Outcome (Option Nat × GMap K × List Ev) := do
  let _ ← s.guaranteedEdge dart
  let x2 := s.sigma dart
  if x2.natAbs = dart.natAbs then .precond
  else
    let x1 := s.sigma x2
    if x1 ≠ dart then .precond
    else
      let d1 := if 0 < x1 ∧ x2 < 0 then x2 else x1
      let d2 := if 0 < x1 ∧ x2 < 0 then x1 else x2
      let m ← s.startLabel d2
      let _ ← s.derefNode m
      let e2 ← s.guaranteedEdge d2
      let s ← s.moveAnchors d2 e2
      s.mergeEdgesHooked c d1 d2 e2 m

/-- cppmap.cxx:1873-1950 `splitEdge`; hook calls in lines 1886, 1947.  The precondition is checked before the
first call. -/
def splitEdgeL (c : Listeners K) (s : GMap K) (l : Nat) (segmentIndex : Nat) (newPoint : Option (Pt K)) : Outcome (Nat × GMap K × List Ev) := do
  let (r, t) ← s.splitEdge l segmentIndex newPoint
  .ok (r, t, notify .preSplitEdge l c.preSplitEdge ++ notify .postSplitEdge l c.postSplitEdge)

section
variable [Field K] [LinearOrder K]

/-- cppmap.cxx:1986-2017, see `bridgeUpdate` -/
def bridgeUpdateL (c : Listeners K) (s : GMap K) (e : Edge K) (f : Nat) (F : Face K) (i : Nat) (dart a1 a2 : Int) : Outcome (GMap K × List Ev) :=
  if a1.natAbs = dart.natAbs then do
    let (_, s, q1) ← s.removeIsolatedNodeL c (e.startOf a1)
    if a2.natAbs = dart.natAbs then do
      let (_, s, q2) ← s.removeIsolatedNodeL c (e.startOf a2)
      .ok (s.setFace f (some { F with anchors := F.anchors.eraseIdx i }), q1 ++ q2)
    else .ok (s.setFace f (some { F with anchors := F.anchors.set i a2 }), q1)
  else if a2.natAbs = dart.natAbs then do
    let (_, s, q2) ← s.removeIsolatedNodeL c (e.startOf a2)
    .ok (s.setFace f (some { F with anchors := F.anchors.set i a1 }), q2)
  else do
    let as ← s.bridgeAnchors f i F.anchors a1 a2
    .ok (s.setFace f (some { F with anchors := as }), [])

/-- cppmap.cxx:1974-2034: `removeBridge` from the first hook on -/
def removeBridgeHooked (c : Listeners K) (s : GMap K) (dart : Int) (e : Edge K) (F : Face K) (f : Nat) : Outcome (Option Nat × GMap K × List Ev) :=
  let q := c.askRemoveBridge s dart
  if ¬ q.1 then .ok (none, s, q.2)
  else do
    let a1 := s.sigmaInv dart
    let a2 := s.sigmaInv (-dart)
    let i ← s.findComponentAnchor F.anchors dart
    let s ← s.detachDart dart
    let s ← s.detachDart (-dart)
    let (s, q') ← s.bridgeUpdateL c e f F i dart a1 a2
    .ok (some f, s.uninitEdge dart.natAbs, q.2 ++ q' ++ notify .postRemoveBridge f c.postRemoveBridge)

/-- cppmap.cxx:1960-2034 `removeBridge`; hook calls in lines 1975, 1666, 2027 -/
def removeBridgeL (c : Listeners K) (s : GMap K) (dart : Int) : Outcome (Option Nat × GMap K × List Ev) := do
  let e ← s.guaranteedEdge dart
  let F ← s.derefFace (e.leftOf dart)
  let _ ← s.derefFace (e.rightOf dart)
  if e.leftOf dart ≠ e.rightOf dart then .precond
  else
    match e.leftOf dart with
    | none => .precond
    | some f => do
      let n1 := e.startOf dart
      let n2 := e.endOf dart
      let _ ← s.derefNode n1
      let _ ← s.derefNode n2
      if n1 = n2 then .precond
      else s.removeBridgeHooked c dart e F f

/-- cppmap.cxx:2133-2138 -/
def removeIfIsolatedL (c : Listeners K) (s : GMap K) (n : Nat) : Outcome (GMap K × List Ev) := do
  let nd ← s.derefNode n
  if nd.anchor = 0 then do
    let (_, s, q) ← s.removeIsolatedNodeL c n
    .ok (s, q)
  else .ok (s, [])

/-- cppmap.cxx:2062-2151, see `mergeFacesApply` -/
def mergeFacesApplyL (c : Listeners K) (s : GMap K) (r : Int) (S M : Face K) (n1 sl ml : Nat) : Outcome (GMap K × List Ev) := do
  let s ← relabelContours sl M.anchors s
  let i1 ← s.findComponentAnchor S.anchors r
  let i2 ← s.findComponentAnchor M.anchors (-r)
  let as ← s.mergedAnchors r.natAbs S.anchors M.anchors i1 i2
  let s := s.setFace sl (some { S with anchors := as })
  let s ← s.detachDart r
  let s ← s.detachDart (-r)
  let (s, q) ← s.removeIfIsolatedL c n1
  let S ← s.derefFace (some sl)
  let (mArea, s) ← s.faceArea (some ml)
  let M ← s.derefFace (some ml)
  let S := { S with area := S.area.map (· + mArea), pixelArea := S.pixelArea + M.pixelArea }
  let s := s.setFace sl (some S)
  let s := s.uninitEdge r.natAbs
  .ok (s.uninitFace ml, q)

/-- cppmap.cxx:2056-2162: `mergeFaces` from the first hook on -/
def mergeFacesHooked (c : Listeners K) (s : GMap K) (r : Int) (S M : Face K) (n1 sl ml : Nat) : Outcome (Option Nat × GMap K × List Ev) :=
  let q := c.askMergeFaces s r
  if ¬ q.1 then .ok (none, s, q.2)
  else do
    let (s, q') ← s.mergeFacesApplyL c r S M n1 sl ml
    .ok (some sl, s, q.2 ++ q' ++ notify .postMergeFaces sl c.postMergeFaces)

/-- cppmap.cxx:2036-2162 `mergeFaces`; hook calls in lines 2057, 1666, 2155 -/
def mergeFacesL (c : Listeners K) (s : GMap K) (dart : Int) : Outcome (Option Nat × GMap K × List Ev) := do
  let e ← s.guaranteedEdge dart
  let (a, s) ← s.faceArea (e.leftOf dart)
  let (b, s) ← s.faceArea (e.rightOf dart)
  let r := chooseDart dart (e.leftOf dart) (e.rightOf dart) a b
  let S ← s.derefFace (e.leftOf r)
  let M ← s.derefFace (e.rightOf r)
  let n1 := e.startOf r
  let _ ← s.derefNode n1
  match e.leftOf r, e.rightOf r with
  | some sl, some ml => if sl = ml then .precond else s.mergeFacesHooked c r S M n1 sl ml
  | _, _ => .precond

end
end GMap

end Verif.GeoMap

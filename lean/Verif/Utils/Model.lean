import Verif.GeoMap.Machine

/-!
# The bulk functions of cppmap_utils

Model of `EdgeProtection`, `removeIsolatedNodes`, `mergeDegree2Nodes`, `removeBridges`, `removeEdges`
and `mergeFacesCompletely` (src/geomap/cppmap_utils.hxx, cppmap_utils.cxx).  They are client code of
the Euler operations modelled in `Verif/GeoMap/Model.lean`.

Simplifications: cell pointers are `boost::shared_ptr` (the default, cppmap.hxx:46-57), so a cell that
was just removed may still be read; the callbacks do not change the map themselves.
-/

namespace Verif.GeoMap
open Verif

variable {K : Type}

/-! ## Flags -/

/-- cppmap.hxx:531-541: all bits of the protection flags -/
def allProtection : Nat := 0xff
/-- cppmap.hxx:531-541 `REMOVE_BRIDGE` -/
def removeBridgeFlag : Nat := 0x80000000
/-- cppmap_utils.cxx:118 `UNREMOVABLE_BRIDGE` -/
def unremovable : Nat := 0x80000

/-- cppmap.hxx:669-672 `flag(which)`, used as a truth value -/
def Edge.flag (e : Edge K) (which : Nat) : Bool := decide (e.flags &&& which ≠ 0)

/-- cppmap.hxx:674-680 `setFlag(flag, onoff)`; `flags_ & ~flag` is written as an exclusive or -/
def Edge.setFlag (e : Edge K) (flag : Nat) (onoff : Bool) : Edge K :=
  { e with flags := if onoff then e.flags ||| flag else e.flags ^^^ (e.flags &&& flag) }

namespace GMap

/-- `*dart.edge()` / `*map.edge(label)` (cppmap.hxx:291-295): out of range labels make a precondition
fail, a NULL pointer is dereferenced -/
def derefEdge (s : GMap K) (l : Nat) : Outcome (Edge K) :=
  if l < s.nEdges then
    match s.edge l with
    | some e => .ok e
    | none => .ub
  else .precond

/-- `map.edge(label)->setFlag(..)` -/
def setEdgeFlag (s : GMap K) (l : Nat) (flag : Nat) (onoff : Bool) : Outcome (GMap K) := do
  let e ← s.derefEdge l
  .ok (s.setEdge l (some (e.setFlag flag onoff)))

/-! ## Clean-up of nodes -/

/-- cppmap_utils.cxx:93-94, for the node with label `n` (the iterator skips removed nodes) -/
def isolatedStep (h : Hooks K) (n : Nat) (c : Nat) (s : GMap K) : Outcome (Nat × GMap K) :=
  match s.node n with
  | none => .ok (c, s)
  | some nd =>
    if nd.anchor = 0 then do
      let (b, s) ← s.removeIsolatedNode h n
      .ok (if b then c + 1 else c, s)
    else .ok (c, s)

/-- cppmap_utils.cxx:92-94: the loop over the node labels -/
def isolatedLoop (h : Hooks K) : List Nat → Nat → GMap K → Outcome (Nat × GMap K)
  | [], c, s => .ok (c, s)
  | n :: ns, c, s => do
    let (c, s) ← isolatedStep h n c s
    isolatedLoop h ns c s

/-- cppmap_utils.cxx:89-96 `removeIsolatedNodes`.  Result: number of nodes removed, new state. -/
def removeIsolatedNodes (h : Hooks K) (s : GMap K) : Outcome (Nat × GMap K) :=
  isolatedLoop h (List.range s.nNodes) 0 s

/-- cppmap_utils.cxx:102-107: the node `n` with anchor `a` is known to have degree 2 -/
def mergeAtAnchor (h : Hooks K) (a : Int) (c : Nat) (s : GMap K) : Outcome (Nat × GMap K) := do
  let e ← s.derefEdge a.natAbs
  if e.startN = e.endN then .ok (c, s)
  else do
    let (r, s) ← s.mergeEdges h a
    .ok (if r.isSome then c + 1 else c, s)

/-- cppmap_utils.cxx:102-107 for the node with label `n` -/
def degree2Step (h : Hooks K) (n : Nat) (c : Nat) (s : GMap K) : Outcome (Nat × GMap K) :=
  match s.node n with
  | none => .ok (c, s)
  | some nd => do
    let b ← s.hasDegree n 2
    if b then mergeAtAnchor h nd.anchor c s else .ok (c, s)

/-- cppmap_utils.cxx:101-107: the loop over the node labels -/
def degree2Loop (h : Hooks K) : List Nat → Nat → GMap K → Outcome (Nat × GMap K)
  | [], c, s => .ok (c, s)
  | n :: ns, c, s => do
    let (c, s) ← degree2Step h n c s
    degree2Loop h ns c s

/-- cppmap_utils.cxx:98-110 `mergeDegree2Nodes` -/
def mergeDegree2Nodes (h : Hooks K) (s : GMap K) : Outcome (Nat × GMap K) :=
  degree2Loop h (List.range s.nNodes) 0 s

section
variable [Field K] [LinearOrder K]

/-! ## Bridges -/

/-- cppmap_utils.cxx:138-141: count a removed bridge, mark one that could not be removed -/
def noteRemoved (s : GMap K) (dart : Int) (r : Option Nat) (c : Nat) : Outcome (Nat × GMap K) :=
  match r with
  | some _ => .ok (c + 1, s)
  | none => do
    let s ← s.setEdgeFlag dart.natAbs unremovable true
    .ok (c, s)

/-- cppmap_utils.cxx:135-152: starting with a dart that leaves a node of degree 1, bridges are removed
one after the other -/
def chainLoop (h : Hooks K) : Nat → GMap K → Int → Nat → Outcome (Nat × GMap K)
  | 0, _, _, _ => .hang
  | fuel + 1, s, dart, c => do
    let next := s.phi dart
    let (r, s) ← s.removeBridge h dart
    let (c, s) ← s.noteRemoved dart r c
    if next.natAbs = dart.natAbs then .ok (c, s)
    else if s.sigma next ≠ next then .ok (c, s)
    else do
      let e ← s.derefEdge next.natAbs
      if e.flag removeBridgeFlag then chainLoop h fuel s next c else .ok (c, s)

/-- cppmap_utils.cxx:128-132: the dart of edge `l` that leaves a node of degree 1 -/
def degreeOneDart (s : GMap K) (l : Nat) : Option Int :=
  if s.sigma (-(l : Int)) = -(l : Int) then some (-(l : Int))
  else if s.sigma (l : Int) = (l : Int) then some (l : Int)
  else none

/-- cppmap_utils.cxx:134-152 for the bridge `l` of the list, `found` is `degree1Found` -/
def roundStep (h : Hooks K) (l : Nat) (c : Nat) (s : GMap K) (found : Bool) : Outcome (Nat × GMap K × Bool) :=
  match s.degreeOneDart l with
  | none => .ok (c, s, found)
  | some d => do
    let (c, s) ← chainLoop h s.fuel s d c
    .ok (c, s, true)

/-- cppmap_utils.cxx:121-153: the search through the list -/
def roundLoop (h : Hooks K) : List Nat → Nat → GMap K → Bool → Outcome (Nat × GMap K × Bool)
  | [], c, s, found => .ok (c, s, found)
  | l :: ls, c, s, found =>
    if l < s.nEdges then
      if (s.edge l).isSome then do
        let (c, s, found) ← roundStep h l c s found
        roundLoop h ls c s found
      else roundLoop h ls c s found
    else .precond

/-- cppmap_utils.cxx:155-168: entries for removed and unremovable bridges are taken off the list -/
def cleanBridges : List Nat → GMap K → Outcome (List Nat × GMap K)
  | [], s => .ok ([], s)
  | l :: ls, s =>
    if l < s.nEdges then
      match s.edge l with
      | none => cleanBridges ls s
      | some e =>
        if e.flag unremovable then cleanBridges ls (s.setEdge l (some (e.setFlag unremovable false)))
        else do
          let (ls, s) ← cleanBridges ls s
          .ok (l :: ls, s)
    else .precond

/-- cppmap_utils.cxx:117-175: the outer loop -/
def removeBridgesLoop (h : Hooks K) : Nat → List Nat → Nat → GMap K → Outcome (Nat × GMap K)
  | _, [], c, s => .ok (c, s)
  | 0, _ :: _, _, _ => .hang
  | fuel + 1, l :: ls, c, s => do
    let (c, s, found) ← roundLoop h (l :: ls) c s false
    let (bs, s) ← cleanBridges (l :: ls) s
    if found then removeBridgesLoop h fuel bs c s
    else
      match bs with
      | [] => .ub
      | b :: bs => do
        let (r, s) ← s.removeBridge h b
        removeBridgesLoop h fuel bs (if r.isSome then c + 1 else c) s

/-- cppmap_utils.cxx:112-180 `removeBridges(map, bridges)`.  Result: number of bridges removed. -/
def removeBridges (h : Hooks K) (s : GMap K) (bridges : List Nat) : Outcome (Nat × GMap K) :=
  removeBridgesLoop h bridges.length bridges 0 s

/-- cppmap_utils.cxx:188-193: all bridges are marked and listed -/
def markBridges : List Nat → GMap K → List Nat × GMap K
  | [], s => ([], s)
  | l :: ls, s =>
    match s.edge l with
    | none => markBridges ls s
    | some e =>
      if e.leftF = e.rightF then
        let (bs, s) := markBridges ls (s.setEdge l (some (e.setFlag removeBridgeFlag true)))
        (l :: bs, s)
      else markBridges ls s

/-- cppmap_utils.cxx:184-196 `removeBridges(map)` -/
def removeAllBridges (h : Hooks K) (s : GMap K) : Outcome (Nat × GMap K) :=
  let (bs, s) := markBridges (List.range s.nEdges) s
  s.removeBridges h bs

/-- cppmap_utils.hxx:122-136: merges faces at the edges that are not bridges (at that moment), collects
the others.  Result: number of merges, list of bridges, new state. -/
def removeEdgesLoop (h : Hooks K) : List Nat → Nat → List Nat → GMap K → Outcome (Nat × List Nat × GMap K)
  | [], c, bs, s => .ok (c, bs, s)
  | l :: ls, c, bs, s =>
    if l < s.nEdges then
      match s.edge l with
      | none => .precond
      | some e =>
        if e.leftF = e.rightF then
          removeEdgesLoop h ls c (bs ++ [l]) (s.setEdge l (some (e.setFlag removeBridgeFlag true)))
        else do
          let (r, s) ← s.mergeFaces h l
          removeEdgesLoop h ls (if r.isSome then c + 1 else c) bs s
    else .precond

/-- cppmap_utils.hxx:113-142 `removeEdges` -/
def removeEdges (h : Hooks K) (s : GMap K) (labels : List Nat) : Outcome (Nat × GMap K) := do
  let (c, bs, s) ← removeEdgesLoop h labels 0 [] s
  let (c1, s) ← s.removeBridges h bs
  let (c2, s) ← s.removeIsolatedNodes h
  let (c3, s) ← s.mergeDegree2Nodes h
  .ok (c + c1 + c2 + c3, s)

/-! ## Merging two faces along all common edges -/

/-- cppmap_utils.cxx:42-53: the darts of the contour of `start` with face `right` on their right;
`none`: one of them is protected -/
def commonLoop (s : GMap K) (start : Int) (right : Option Nat) : Nat → Int → List Int → Outcome (Option (List Int))
  | 0, _, _ => .hang
  | fuel + 1, d, acc => do
    let e ← s.guaranteedEdge d
    if e.rightOf d = right then
      if e.flag allProtection then .ok none
      else
        let d' := s.phi d
        if d' = start then .ok (some (acc ++ [d])) else commonLoop s start right fuel d' (acc ++ [d])
    else
      let d' := s.phi d
      if d' = start then .ok (some acc) else commonLoop s start right fuel d' acc

/-- cppmap_utils.cxx:58-69: the first successful `mergeFaces` makes all other common edges bridges.
Result: the survivor, the affected nodes, new state. -/
def mergeCommon (h : Hooks K) : List Int → Option Nat → List Nat → GMap K → Outcome (Option Nat × List Nat × GMap K)
  | [], survivor, ns, s => .ok (survivor, ns, s)
  | d :: ds, survivor, ns, s => do
    let e ← s.guaranteedEdge d
    let ns := ns ++ [e.startOf d, e.endOf d]
    match survivor with
    | none => do
      let (r, s) ← s.mergeFaces h d
      mergeCommon h ds r ns s
    | some f => do
      let (_, s) ← s.removeBridge h d
      mergeCommon h ds (some f) ns s

/-- cppmap_utils.cxx:74-82: one affected node.  (After `removeIsolatedNode`, `hasDegree(2)` is false
for the removed node, too: its anchor is 0.) -/
def cleanNode (h : Hooks K) (merge2 : Bool) (n : Nat) (s : GMap K) : Outcome (GMap K) :=
  if n < s.nNodes then
    match s.node n with
    | none => .ok s
    | some nd =>
      if nd.anchor = 0 then do
        let (_, s) ← s.removeIsolatedNode h n
        .ok s
      else if merge2 then do
        let b ← s.hasDegree n 2
        if b then do
          let m ← s.endLabel nd.anchor
          if m ≠ n then do
            let (_, s) ← s.mergeEdges h nd.anchor
            .ok s
          else .ok s
        else .ok s
      else .ok s
  else .precond

/-- cppmap_utils.cxx:71-83 -/
def cleanNodes (h : Hooks K) (merge2 : Bool) : List Nat → GMap K → Outcome (GMap K)
  | [], s => .ok s
  | n :: ns, s => do
    let s ← cleanNode h merge2 n s
    cleanNodes h merge2 ns s

/-- cppmap_utils.cxx:31-85 `mergeFacesCompletely`.  Result: `none` = NULL. -/
def mergeFacesCompletely (h : Hooks K) (s : GMap K) (dart : Int) (merge2 : Bool) : Outcome (Option Nat × GMap K) := do
  let e ← s.derefEdge dart.natAbs
  if e.leftF = e.rightF then .precond
  else do
    let ds ← s.commonLoop dart (e.rightOf dart) s.fuel dart []
    match ds with
    | none => .ok (none, s)
    | some ds => do
      let (r, ns, s) ← mergeCommon h ds none [] s
      let s ← cleanNodes h merge2 ns s
      .ok (r, s)

end

end GMap

/-! ## Callbacks -/

/-- cppmap_utils.hxx:81-84 `EdgeProtection::preRemoveEdge`.  (The callback is only called with existing
darts.) -/
def protPreRemoveEdge (s : GMap K) (d : Int) : Bool :=
  match s.edge d.natAbs with
  | some e => !e.flag allProtection
  | none => true

/-- cppmap_utils.hxx:87-91 `EdgeProtection::preMergeEdges` -/
def protPreMergeEdges (s : GMap K) (d : Int) : Bool :=
  decide ((s.edge d.natAbs).map (·.flags) = (s.edge (s.sigma d).natAbs).map (·.flags))

/-- The slots connected to the four signals that can cancel an operation (cppmap.hxx:373-401), in the
order of connection. -/
structure Slots (K : Type) where
  removeNode : List (GMap K → Nat → Bool)
  preMergeEdges : List (GMap K → Int → Bool)
  preRemoveBridge : List (GMap K → Int → Bool)
  preMergeFaces : List (GMap K → Int → Bool)

/-- cppmap.hxx:81-93 `interruptable_accumulator`: the slots (called lazily through the iterator) up to
the first one that returns `false` -/
def accumulate {α : Type} : List (α → Bool) → α → Bool
  | [], _ => true
  | f :: fs, a => if f a then accumulate fs a else false

/-- the signals of a map, as seen by its operations -/
def Slots.hooks (c : Slots K) : Hooks K where
  removeNode := fun s n => accumulate (c.removeNode.map fun f (x : GMap K × Nat) => f x.1 x.2) (s, n)
  preMergeEdges := fun s d => accumulate (c.preMergeEdges.map fun f (x : GMap K × Int) => f x.1 x.2) (s, d)
  preRemoveBridge := fun s d => accumulate (c.preRemoveBridge.map fun f (x : GMap K × Int) => f x.1 x.2) (s, d)
  preMergeFaces := fun s d => accumulate (c.preMergeFaces.map fun f (x : GMap K × Int) => f x.1 x.2) (s, d)

/-- cppmap_utils.hxx:58-71 `EdgeProtection::attachHooks`: the slots are connected (at the end) -/
def Slots.attachProtection (c : Slots K) : Slots K where
  removeNode := c.removeNode
  preMergeEdges := c.preMergeEdges ++ [protPreMergeEdges]
  preRemoveBridge := c.preRemoveBridge ++ [protPreRemoveEdge]
  preMergeFaces := c.preMergeFaces ++ [protPreRemoveEdge]

end Verif.GeoMap

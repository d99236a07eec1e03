import Verif.Sigma.Props
import Verif.GeoMap.Props2

/-!
# Model of `GeoMap::checkConsistency` (src/geomap/cppmap.cxx:1322-1656)

The function prints messages and returns `false` if it finds anything wrong; the model returns the
`bool`.  `a` are the two vectors of the sigma permutation (`Verif/Sigma`), `s` the rest of the map.

Not modelled: the tests `map() != this`; the comparison of the cached `partialArea` and `length` of an
edge with recomputed values (lines 1487-1502; the caches are modelled in `Verif/Polygon`); messages.
-/

namespace Verif.Check
open Verif Verif.GeoMap Verif.Sigma

variable {K : Type} [Field K] [LinearOrder K]

/-- cppmap.cxx:1328-1332: iterators not in the middle, even size, different sizes.  (Both iterators
have the same offset in `Arrays`.) -/
def setupWrong (a : Arrays) : Bool :=
  a.centre ≠ (a.sig.length - 1) / 2 || a.sig.length % 2 = 0 || a.sig.length ≠ a.inv.length

/-- cppmap.cxx:1367-1370: the test for one label -/
def sigmaLabel (a : Arrays) (s : GMap K) (label : Int) : Outcome Bool := do
  let v ← a.getS label
  if v ≠ 0 ∧ label.natAbs < s.nEdges ∧ (s.edge label.natAbs).isSome then do
    let w ← a.getI v
    .ok (w = label)
  else .ok true

/-- cppmap.cxx:1353-1377: `k` labels, beginning with `label` -/
def sigmaLoop (a : Arrays) (s : GMap K) : Nat → Int → Bool → Outcome Bool
  | 0, _, r => .ok r
  | k + 1, label, r => do
    let b ← sigmaLabel a s label
    sigmaLoop a s k (label + 1) (r && b)

/-- `Dart::edge()` (cppmap.hxx:868-871), `edge(label)` (241-245): the label is checked, the pointer may be NULL -/
def edgePtr (s : GMap K) (d : Int) : Outcome (Option (Edge K)) :=
  if d.natAbs < s.nEdges then .ok (s.edge d.natAbs) else .precond

/-- `face(label)` (cppmap.hxx:262-266) -/
def facePtr (s : GMap K) : Option Nat → Outcome (Option (Face K))
  | none => .precond
  | some f => if f < s.nFaces then .ok (s.face f) else .precond

/-- cppmap.cxx:1404-1438: walk around node `n` -/
def sigmaOrbit (s : GMap K) (n : Nat) (anchor : Int) : Nat → Int → Outcome Bool
  | 0, _ => .hang
  | fuel + 1, d => do
    let e ← edgePtr s d
    match e with
    | none => .ok false
    | some e =>
      if e.startOf d ≠ n then .ok false
      else if s.sigma d = anchor then .ok true
      else sigmaOrbit s n anchor fuel (s.sigma d)

/-- cppmap.cxx:1386-1439: node count, isolated nodes, result -/
def nodesLoop (s : GMap K) : List Nat → Nat → Nat → Bool → Outcome (Nat × Nat × Bool)
  | [], cnt, iso, r => .ok (cnt, iso, r)
  | n :: ns, cnt, iso, r =>
    match s.node n with
    | none => nodesLoop s ns cnt iso r
    | some nd =>
      if nd.anchor = 0 then nodesLoop s ns (cnt + 1) (iso + 1) r
      else do
        let b ← sigmaOrbit s n nd.anchor s.fuel nd.anchor
        nodesLoop s ns (cnt + 1) iso (r && b)

/-- cppmap.cxx:1475-1500: number of points and end positions -/
def edgeGeometry (s : GMap K) (e : Edge K) : Outcome Bool :=
  if e.pts.length < 2 then .ok false
  else do
    let a ← s.derefNode e.startN
    let b ← s.derefNode e.endN
    .ok (decide (e.pts.head? = some a.pos) && decide (e.pts.getLast? = some b.pos))

/-- cppmap.cxx:1459-1502: one edge -/
def edgeCheck (s : GMap K) (e : Edge K) : Outcome Bool :=
  if s.initialized then do
    let r1 := !(decide (e.leftF = e.rightF) && decide (e.startN = e.endN))
    let l ← facePtr s e.leftF
    let r ← facePtr s e.rightF
    if l.isNone || r.isNone then .ok false
    else do
      let g ← edgeGeometry s e
      .ok (r1 && g)
  else edgeGeometry s e

/-- cppmap.cxx:1447-1519: edge count, result -/
def edgesLoop (s : GMap K) : List Nat → Nat → Bool → Outcome (Nat × Bool)
  | [], cnt, r => .ok (cnt, r)
  | l :: ls, cnt, r =>
    match s.edge l with
    | none => edgesLoop s ls cnt r
    | some e => do
      let b ← edgeCheck s e
      edgesLoop s ls (cnt + 1) (r && b)

/-- cppmap.cxx:1568-1586: walk around a contour of face `f`: the dart where it ends, the area, no wrong label -/
def contourLoop (s : GMap K) (f : Nat) (anchor : Int) : Nat → Int → K → Outcome (Int × K × Bool)
  | 0, _, _ => .hang
  | fuel + 1, d, acc => do
    let e ← s.guaranteedEdge d
    if e.leftOf d ≠ some f then .ok (d, acc, false)
    else
      let acc := if e.leftF ≠ e.rightF then acc + e.areaOf d else acc
      if s.phi d = anchor then .ok (anchor, acc, true) else contourLoop s f anchor fuel (s.phi d) acc

/-- cppmap.cxx:1547-1619: the contours of face `f`.  `canonicalAnchor` is always `ci->label()`, so
`seenAnchors` finds only equal darts. -/
def contoursLoop (s : GMap K) (f : Nat) : List Int → Bool → List Int → Bool → Outcome Bool
  | [], _, _, r => .ok r
  | a :: as, outer, seen, r => do
    let e ← edgePtr s a
    if e.isNone then contoursLoop s f as false seen false
    else do
      let x ← contourLoop s f a s.fuel a 0
      let r := r && x.2.2
      if x.1 ≠ a then contoursLoop s f as false seen r
      else
        let r := r && !(decide (x.2.1 ≤ 0) == outer)
        let r := r && !seen.contains a
        contoursLoop s f as false (a :: seen) r

/-- cppmap.cxx:1527-1620: face count, holes (`connectedComponentsCount`), contours, result.
`holeCount` (cppmap.hxx:1266-1269) is `unsigned`; here it is -1 for a finite face without contours. -/
def facesLoop (s : GMap K) : List Nat → Nat → Int → Int → Bool → Outcome (Nat × Int × Int × Bool)
  | [], cnt, holes, contours, r => .ok (cnt, holes, contours, r)
  | f :: fs, cnt, holes, contours, r =>
    match s.face f with
    | none => facesLoop s fs cnt holes contours r
    | some F => do
      let h : Int := (F.anchors.length : Int) - if f = 0 then 0 else 1
      let r ← contoursLoop s f F.anchors (decide (0 < f)) [] r
      facesLoop s fs (cnt + 1) (holes + h) (contours + h + if f = 0 then 0 else 1) r

/-- cppmap.cxx:1382-1656: nodes, edges, faces, Euler's formula (`unsigned` arithmetic) -/
def checkCells (s : GMap K) (r : Bool) : Outcome Bool := do
  let (n, iso, r) ← nodesLoop s (List.range s.nNodes) 0 0 r
  let r := r && decide (n = s.nodeCount)
  let (e, r) ← edgesLoop s (List.range s.nEdges) 0 r
  let r := r && decide (e = s.edgeCount)
  if ¬ s.initialized then .ok r
  else do
    let (f, c, b, r) ← facesLoop s (List.range s.nFaces) 0 0 0 r
    let r := r && decide (f = s.faceCount)
    let n' : Int := (n : Int) - iso
    let r := r && decide ((n' - e + f - c - 1) % 2 ^ 32 = 0)
    let r := r && decide ((n' - e + b - 2 * c) % 2 ^ 32 = 0)
    .ok r

/-- cppmap.cxx:1322-1656 `checkConsistency()` -/
def checkConsistency (a : Arrays) (s : GMap K) : Outcome Bool :=
  if setupWrong a then checkCells s false
  else do
    let dist := a.sig.length / 2
    let r ← sigmaLoop a s (2 * dist + 1) (-(dist : Int)) (decide (s.nEdges * 2 - 1 ≤ a.sig.length))
    if r then checkCells s true else .ok false

end Verif.Check

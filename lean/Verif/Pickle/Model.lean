import Verif.GeoMap.Machine2
import Verif.GeoMap.Rename
import Verif.Sigma.Trace

/-!
# Model of pickling a `GeoMap` (src/python_bindings/cppmapmodule.cxx:456-718)

`pickle` is what Python stores (`getinitargs` and `getstate` of `GeoMapPickleSuite`), `unpickle` what
it does to get the map back (the constructor `createGeoMap`, then `setstate`).

Simplifications: as in `Verif/GeoMap/Model.lean` and `ModelInit.lean`; the image size, the label image
and the attribute dictionary are left out; the format with less than nine entries ("backward compat.")
is left out.  Python exceptions (an index outside a list) are `precond`.
-/

namespace Verif.Pickle
open Verif Verif.GeoMap

variable {K : Type}

/-- a map and the flags of its faces (cppmap.hxx:1273-1290 `Face::flags`), which `GMap` leaves out -/
structure PMap (K : Type) where
  map : GMap K
  faceFlags : Nat → Nat

/-- The pickled data.  `faces` are the three lists `faceFlags`, `faceAnchors`, `faceLabels`
(cppmapmodule.cxx:650-656), which have one entry per face each. -/
structure Pickled (K : Type) where
  nodes : List (Option (Pt K))
  edges : List (Option (Nat × Nat × List (Pt K)))
  sigma : List Int
  sorted : Bool
  initialized : Bool
  edgeFlags : List Nat
  faces : List (Nat × Int × Nat)
  maxFaceLabel : Nat

/-! ## getinitargs, getstate -/

/-- cppmapmodule.cxx:614-620, 622-633: list of the cells of an iterator, `None` for missing labels -/
def listCells {α : Type} (cell : Nat → Option α) : List Nat → List (Option α) → List (Option α)
  | [], acc => acc
  | n :: ns, acc =>
    match cell n with
    | none => listCells cell ns acc
    | some a => listCells cell ns (acc ++ List.replicate (n - acc.length) none ++ [some a])

/-- cppmapmodule.cxx:650-656: flags (without the four highest of 32 bits), `contour().label()` and
label of all faces; `contour()` of a face without contours reads the first element of an empty vector -/
def faceStates (s : PMap K) : List Nat → Outcome (List (Nat × Int × Nat))
  | [] => .ok []
  | f :: fs =>
    match s.map.face f with
    | none => faceStates s fs
    | some F =>
      match F.anchors with
      | [] => .ub
      | a :: _ => do
        let rest ← faceStates s fs
        .ok ((s.faceFlags f % 2 ^ 28, a, f) :: rest)

/-- cppmapmodule.cxx:611-636 `getinitargs` and 638-666 `getstate`; `a` is the storage of the sigma
mapping -/
def pickle (a : Sigma.Arrays) (s : PMap K) : Outcome (Pickled K) := do
  let faces ← faceStates s (List.range s.map.nFaces)
  .ok {
    nodes := listCells (fun n => (s.map.node n).map (·.pos)) (List.range s.map.nNodes) []
    edges := listCells (fun l => (s.map.edge l).map fun e => (e.startN, e.endN, e.pts)) (List.range s.map.nEdges) []
    sigma := a.pyExport fun l => (s.map.edge l).isSome
    sorted := s.map.edgesSorted
    initialized := decide s.map.initialized
    edgeFlags := (List.range s.map.nEdges).filterMap fun l => (s.map.edge l).map (·.flags)
    faces := faces
    maxFaceLabel := s.map.nFaces }

/-! ## createGeoMap -/

/-- cppmapmodule.cxx:463-468: the nodes, `i` is the index of the first entry -/
def addNodes : List (Option (Pt K)) → Nat → GMap K → GMap K
  | [], _, s => s
  | none :: l, i, s => addNodes l (i + 1) s
  | some p :: l, i, s => addNodes l (i + 1) (s.addNodeAt p i).2

/-- cppmapmodule.cxx:474-493: the edges -/
def addEdges [Field K] [LinearOrder K] : List (Option (Nat × Nat × List (Pt K))) → Nat → GMap K → Outcome (GMap K)
  | [], _, s => .ok s
  | none :: l, i, s => addEdges l (i + 1) s
  | some (a, b, pts) :: l, i, s =>
    if (s.node a).isSome ∧ (s.node b).isSome then do
      let (_, s) ← s.addEdge (.node a) (.node b) pts i
      addEdges l (i + 1) s
    else .precond

/-- cppmapmodule.cxx:456-496 `createGeoMap` -/
def createGeoMap [Field K] [LinearOrder K] (nodes : List (Option (Pt K))) (edges : List (Option (Nat × Nat × List (Pt K)))) : Outcome (GMap K) :=
  match edges with
  | [] => .ok (addNodes nodes 0 GMap.empty)
  | some _ :: _ => .precond
  | none :: es => addEdges es 1 (addNodes nodes 0 GMap.empty)

/-! ## setstate -/

/-- cppmap.cxx:940-963 `setSigmaMapping` on the mappings of the map (the storage is in `Verif/Sigma`) -/
def setSigmaMapping (s : GMap K) (given : List Int) (sorted : Bool) : Outcome (GMap K) :=
  if s.initialized then .precond
  else if given.length < 2 * s.nEdges - 1 then .precond
  else
    let f := (Sigma.Call.setMapping ((List.range s.nEdges).filter fun l => (s.edge l).isSome) given).apply (Sigma.Fn.of s)
    .ok { s with
      sigma := f.sigma
      sigmaInv := f.inv
      edgesSorted := sorted }

/-- cppmapmodule.cxx:696-700: the flags of the edges -/
def restoreEdgeFlags : List Nat → List Nat → GMap K → Outcome (GMap K)
  | [], _, s => .ok s
  | l :: ls, fl, s =>
    match s.edge l with
    | none => restoreEdgeFlags ls fl s
    | some e =>
      match fl with
      | [] => .precond
      | x :: fl => restoreEdgeFlags ls fl (s.setEdge l (some { e with flags := e.flags ||| x }))

/-- cppmapmodule.cxx:702-712: the first `n` entries; flags of the faces and the vector of new labels -/
def restoreFaces (s : GMap K) : Nat → List (Nat × Int × Nat) → (Nat → Nat) → List Nat → Outcome ((Nat → Nat) × List Nat)
  | 0, _, fl, new => .ok (fl, new)
  | _ + 1, [], _, _ => .precond
  | n + 1, (x, a, f) :: rest, fl, new => do
    let g ← s.leftLabel a
    let _ ← s.derefFace g
    match g with
    | none => .precond
    | some g =>
      if g < new.length then restoreFaces s n rest (Function.update fl g (fl g ||| x % 2 ^ 28)) (new.set g f)
      else .ub

/-- the flags travel with the faces when these are renamed (cppmap.cxx:1225-1238) -/
def moveFlags (s : GMap K) (new : List Nat) (fl : Nat → Nat) : Nat → Nat := fun f =>
  match (List.range new.length).find? fun l => (s.face l).isSome && new[l]? == some f with
  | some l => fl l
  | none => 0

/-- cppmapmodule.cxx:714-715: `changeFaceLabels` unless the map has no faces; an exception is `precond` -/
def relabelFaces (s : GMap K) (fl : Nat → Nat) (new : List Nat) (size : Nat) : Outcome (PMap K) := do
  let r ← s.changeFaceLabels new size
  if r.done then .ok ⟨r.map, moveFlags s new fl⟩ else .precond

/-- cppmapmodule.cxx:670-718 `setstate`; `pick` is the geometric search of `embedFaces` -/
def setstate [Field K] [LinearOrder K] (pick : GMap K → Int → Option Nat) (s : GMap K) (p : Pickled K) : Outcome (PMap K) := do
  let s ← setSigmaMapping s p.sigma p.sorted
  let s ← if p.initialized then s.initializeMap pick else .ok s
  let s ← restoreEdgeFlags (List.range s.nEdges) p.edgeFlags s
  let (fl, new) ← restoreFaces s s.faceCount p.faces (fun _ => 0) (List.replicate s.nFaces 0)
  if p.initialized then relabelFaces s fl new p.maxFaceLabel else .ok ⟨s, fl⟩

/-- unpickling: the constructor is called with the result of `getinitargs`, then `setstate` -/
def unpickle [Field K] [LinearOrder K] (pick : GMap K → Int → Option Nat) (p : Pickled K) : Outcome (PMap K) := do
  let s ← createGeoMap p.nodes p.edges
  setstate pick s p

end Verif.Pickle

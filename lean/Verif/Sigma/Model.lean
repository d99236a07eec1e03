import Verif.GeoMap.ModelInit

/-!
# Model of the sigma permutation storage (src/geomap/cppmap.cxx, cppmap.hxx:185-190)

`GeoMap` keeps `sigmaMapping_` and `sigmaInverseMapping_` as iterators to the middle of two
`std::vector<int>`s, so that they can be indexed by the labels `-n … n` of darts.  Here every
access is checked: an index outside the vector is `ub`.

Simplifications: `int` is unbounded; only the statements that touch the two vectors are modelled
(the rest of the operations is in `Verif/GeoMap`).
-/

namespace Verif.Sigma
open Verif

/-- cppmap.hxx:185-190: `sigmaMappingArray_`, `sigmaInverseMappingArray_`; `centre` is the offset of
`sigmaMapping_` / `sigmaInverseMapping_` in them -/
structure Arrays where
  sig : List Int
  inv : List Int
  centre : Nat
  deriving DecidableEq

/-- cppmap.cxx:230-243: the constructor, both vectors have 101 zeros -/
def Arrays.init : Arrays := ⟨List.replicate 101 0, List.replicate 101 0, 50⟩

/-- `it[i]` for an iterator `it` at offset `c` of `l`, read -/
def readAt (l : List Int) (c : Nat) (i : Int) : Outcome Int :=
  if 0 ≤ (c : Int) + i then
    match l[((c : Int) + i).toNat]? with
    | some v => .ok v
    | none => .ub
  else .ub

/-- `it[i] = v` for an iterator `it` at offset `c` of `l` -/
def writeAt (l : List Int) (c : Nat) (i v : Int) : Outcome (List Int) :=
  if 0 ≤ (c : Int) + i ∧ (c : Int) + i < l.length then .ok (l.set ((c : Int) + i).toNat v) else .ub

namespace Arrays

/-- `sigmaMapping_[i]` -/
def getS (a : Arrays) (i : Int) : Outcome Int := readAt a.sig a.centre i
/-- `sigmaInverseMapping_[i]` -/
def getI (a : Arrays) (i : Int) : Outcome Int := readAt a.inv a.centre i
/-- `sigmaMapping_[i] = v` -/
def setS (a : Arrays) (i v : Int) : Outcome Arrays := (writeAt a.sig a.centre i v).map fun l => { a with sig := l }
/-- `sigmaInverseMapping_[i] = v` -/
def setI (a : Arrays) (i v : Int) : Outcome Arrays := (writeAt a.inv a.centre i v).map fun l => { a with inv := l }

/-- `std::copy(l.begin(), l.end(), fresh.begin() + off)` for a vector `fresh` of `n` zeros -/
def copyInto (n off : Nat) (l : List Int) : Outcome (List Int) :=
  if off + l.length ≤ n then .ok (List.replicate off 0 ++ l ++ List.replicate (n - off - l.length) 0) else .ub

/-- cppmap.cxx:1255-1271 `resizeSigmaMapping` -/
def resize (a : Arrays) (newSize : Nat) : Outcome Arrays := do
  let s ← copyInto newSize (a.sig.length / 2) a.sig
  let i ← copyInto newSize (a.sig.length / 2) a.inv
  .ok ⟨s, i, newSize / 2⟩

/-- cppmap.cxx:1275-1276: `while(size < 2*abs(n)+1) resize(2*size-1)`.  Each round must make the
vector longer, so `2|n|+1` rounds are enough fuel. -/
def growLoop (n : Nat) : Nat → Arrays → Outcome Arrays
  | 0, _ => .hang
  | fuel + 1, a =>
    if a.sig.length < 2 * n + 1 then do
      let a ← a.resize (2 * a.sig.length - 1)
      growLoop n fuel a
    else .ok a

/-- cppmap.cxx:1278-1289, after the growth -/
def link (a : Arrays) (successor newPredecessor : Int) : Outcome Arrays :=
  if successor = 0 then do
    let a ← a.setS newPredecessor newPredecessor
    a.setI newPredecessor newPredecessor
  else do
    let oldPredecessor ← a.getI successor
    let a ← a.setS oldPredecessor newPredecessor
    let a ← a.setS newPredecessor successor
    let a ← a.setI successor newPredecessor
    a.setI newPredecessor oldPredecessor

/-- cppmap.cxx:1273-1290 `insertSigmaPredecessor` -/
def insertPredecessor (a : Arrays) (successor newPredecessor : Int) : Outcome Arrays := do
  let a ← growLoop newPredecessor.natAbs (2 * newPredecessor.natAbs + 2) a
  a.link successor newPredecessor

/-- cppmap.cxx:1292-1300 `detachDart`, the array part -/
def detach (a : Arrays) (d : Int) : Outcome Arrays := do
  let successor ← a.getS d
  let predecessor ← a.getI d
  let a ← a.setS predecessor successor
  a.setI successor predecessor

/-- cppmap.cxx:1847-1862 (`mergeEdges`): `-d2` is replaced by `d1` -/
def replaceDart (a : Arrays) (d1 d2 : Int) : Outcome Arrays := do
  let successor ← a.getS (-d2)
  if successor = -d2 then do
    let a ← a.setS d1 d1
    a.setI d1 d1
  else do
    let predecessor ← a.getI (-d2)
    let a ← a.setS predecessor d1
    let a ← a.setS d1 successor
    let a ← a.setI successor d1
    a.setI d1 predecessor

/-- cppmap.cxx:1907-1908 (`splitEdge`): at most one growth step -/
def growOnce (a : Arrays) (label : Nat) : Outcome Arrays :=
  if a.sig.length < 2 * label + 1 then a.resize (2 * a.sig.length - 1) else .ok a

/-- cppmap.cxx:1922-1938 (`splitEdge`): the new edge at its end node -/
def splitTail (a : Arrays) (l r : Nat) (successor predecessor : Int) : Outcome Arrays :=
  if successor = -(l : Int) then do
    let a ← a.setS (-(r : Int)) (-(r : Int))
    a.setI (-(r : Int)) (-(r : Int))
  else do
    let a ← a.setS predecessor (-(r : Int))
    let a ← a.setS (-(r : Int)) successor
    let a ← a.setI successor (-(r : Int))
    a.setI (-(r : Int)) predecessor

/-- cppmap.cxx:1907-1938 (`splitEdge`): edge `l` is split, the new edge is `r` -/
def splitEdge (a : Arrays) (l r : Nat) : Outcome Arrays := do
  let a ← a.growOnce r
  let successor ← a.getS (-(l : Int))
  let predecessor ← a.getI (-(l : Int))
  let a ← a.setS (-(l : Int)) r
  let a ← a.setS r (-(l : Int))
  let a ← a.setI r (-(l : Int))
  let a ← a.setI (-(l : Int)) r
  a.splitTail l r successor predecessor

/-- cppmap.cxx:456-474 (`sortEdgesDirectly`): the darts of one node are linked in sorted order -/
def linkCycle (first : Int) : Int → List Int → Arrays → Outcome Arrays
  | pred, [], a => do
    let a ← a.setS pred first
    a.setI first pred
  | pred, x :: xs, a => do
    let a ← a.setS pred x
    let a ← a.setI x pred
    linkCycle first x xs a

/-- cppmap.cxx:391-401 with 383-389 (`addEdge`): the new edge `l` is inserted before `s1` at its
start and before `s2` at its end -/
def addEdge (a : Arrays) (l : Nat) (s1 s2 : Int) : Outcome Arrays := do
  let a ← a.insertPredecessor s1 l
  a.insertPredecessor s2 (-(l : Int))

/-- cppmap.cxx:955-956 (`setSigmaMapping`): `std::copy` of the entries `-(n-1) … n-1`; `i` is the
next index, `k` the number of entries left -/
def copyEntries (given : List Int) : Nat → Int → Arrays → Outcome Arrays
  | 0, _, a => .ok a
  | k + 1, i, a => do
    let v ← readAt given (given.length / 2) i
    let a ← a.setS i v
    copyEntries given k (i + 1) a

/-- cppmap.cxx:957-962 (`setSigmaMapping`): the inverse of the existing edges -/
def invertEdges : List Nat → Arrays → Outcome Arrays
  | [], a => .ok a
  | l :: ls, a => do
    let v ← a.getS l
    let a ← a.setI v l
    let v ← a.getS (-(l : Int))
    let a ← a.setI v (-(l : Int))
    invertEdges ls a

/-- cppmap.cxx:951-952 (`setSigmaMapping`) -/
def growTo (a : Arrays) (n : Nat) : Outcome Arrays := if a.sig.length < n then a.resize n else .ok a

/-- cppmap.cxx:940-963 `setSigmaMapping`: `n = edges_.size()`, `edges` the existing edges.  The
`mapInitialized()` precondition is not modelled. -/
def setMapping (a : Arrays) (n : Nat) (edges : List Nat) (given : List Int) : Outcome Arrays :=
  if given.length < 2 * n - 1 then .precond
  else do
    let a ← a.growTo (2 * n - 1)
    let a ← copyEntries given (2 * n - 1) (-((n : Int) - 1)) a
    invertEdges edges a

/-- cppmapmodule.cxx:576-581: zeros at both ends are dropped (`while(*first == 0 && last[-1] == 0
&& last >= first + 3)`) -/
def trim : Nat → List Int → List Int
  | 0, l => l
  | k + 1, l =>
    if l.head? = some 0 ∧ l.getLast? = some 0 ∧ 3 ≤ l.length then trim k (l.drop 1).dropLast else l

/-- cppmapmodule.cxx:572-593 `GeoMap_sigmaMapping`: `sigmaMapping()` as seen from Python; `live`
tells which edges exist -/
def pyExport (a : Arrays) (live : Nat → Bool) : List Int :=
  (trim a.sig.length a.sig).map fun v => if live v.natAbs then v else 0

end Arrays

/-- One operation on the vectors, with what it needs to know from the rest of the map. -/
inductive Call where
  /-- `addEdge`: new label `l`, inserted before the darts `s1`, `s2` (0: isolated node) -/
  | addEdge (l : Nat) (s1 s2 : Int)
  /-- `splitEdge` of edge `l` -/
  | splitEdge (l : Nat)
  /-- `mergeEdges` -/
  | replaceDart (d1 d2 : Int)
  /-- `removeBridge`, `mergeFaces`, `removeEdge` -/
  | detach (d : Int)
  /-- `sortEdgesDirectly` at one node -/
  | sortNode (first : Int) (rest : List Int)
  /-- `setSigmaMapping` -/
  | setMapping (edges : List Nat) (given : List Int)

/-- `n` is `edges_.size()` before the call; `splitEdge` uses `n` as the label of the new edge -/
def Call.run (n : Nat) (a : Arrays) : Call → Outcome Arrays
  | .addEdge l s1 s2 => a.addEdge l s1 s2
  | .splitEdge l => a.splitEdge l n
  | .replaceDart d1 d2 => a.replaceDart d1 d2
  | .detach d => a.detach d
  | .sortNode first rest => Arrays.linkCycle first first rest a
  | .setMapping edges given => a.setMapping n edges given

/-- `edges_.size()` after the call -/
def Call.size (n : Nat) : Call → Nat
  | .addEdge l _ _ => l + 1
  | .splitEdge _ => n + 1
  | _ => n

/-- a history of calls, starting with `edges_.size() = n` -/
def runCalls : List Call → Nat → Arrays → Outcome Arrays
  | [], _, a => .ok a
  | c :: cs, n, a => do
    let a ← c.run n a
    runCalls cs (c.size n) a

end Verif.Sigma
